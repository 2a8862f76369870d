import Verif.Props.Kept
import Verif.Props.ReducedRecord

/-!
# C48 with the reduced model: exactly when QP task control leaves every command as it is
-/

set_option linter.unusedSectionVars false

namespace Verif.Props
open Matrix Verif Verif.Spec Verif.Model

section
variable {k c : ℕ} {ν : Type*} [Fintype ν] [DecidableEq ν]
variable {D : Reduced (Fin k) ν} {C : ReducedContact c (Fin k) ν} {R : Mat3} {P : Matrix (RSys (Fin k) ν) (RSys (Fin k) ν) ℝ}
  {K : Option (Matrix (Fin k ⊕ Fin 6) (Fin 6) ℝ)} {Q : RQPRobot k c} {solve : Solver} {lim : Option (Fin (k + 6) → ℝ)} {m : ℕ}
  {Cm : Matrix (Fin m) (Fin c) ℝ}

theorem rloop_kept (hfit : Q.fit = some lim) (hst : stackC Q.cs c = some ⟨m, Cm⟩) (hs : solve.Exact) (hcomp : solve.Complete)
    (l : List (RTask (Fin k) ν × RTaskRecord k)) (hl : ∀ p ∈ l, p.1.noncont = false) (i : ℕ)
    (prev : Option (RTask (Fin k) ν × Matrix (Fin k ⊕ Fin 6) (Fin k ⊕ Fin 6) ℝ)) (τ0 : Fin k ⊕ Fin 6 → ℝ) (f : Fin 6 → ℝ) :
    (∃ τ τR out, rqpFromRec D C R P K Q solve i prev τ0 f none l = (.ret 1 τ τR, out) ∧ ∀ r ∈ out, r.fqp.2 = 0) ↔
      ∀ j < l.length, ∃ y z, rTaskFrom D C R P K prev τ0 0 ((l.map Prod.fst).take (j + 1)) = some (y, 0) ∧
        OkR D C lim Cm (reducedGravity D C + y + Q.NwJw *ᵥ z) := by
  induction l generalizing i prev τ0 with
  | nil => simp [rqpFromRec, rqpFinish]
  | cons p l ih =>
    obtain ⟨T, q⟩ := p
    have hT : T.noncont = false := hl (T, q) (List.mem_cons_self ..)
    have hl' : ∀ p ∈ l, p.1.noncont = false := fun p hp => hl p (List.mem_cons_of_mem _ hp)
    set B := prevNull prev * (T.Jkt * T.Λ) with hB
    have hstep : ∀ {x}, (fun a => x (Sum.inl a)) = (0 : Fin T.t → ℝ) →
        solve i T.t (c - 6) (rQP D C Q lim Cm B T.f (reducedGravity D C + τ0)) = some x →
        rqpFromRec D C R P K Q solve i prev τ0 f none ((T, q) :: l) =
          let y := prevNull prev *ᵥ (T.Jkt *ᵥ (T.Λ *ᵥ T.f))
          let o := rqpFromRec D C R P K Q solve (i + 1) (some (T, nullR C T (prevNull prev))) (τ0 + y) f none l
          (o.1, { q.solved T.t (c - 6) x with part := y } :: o.2) := by
      intro x h0 hx
      rw [rec_chain _ _ _ _ _ hT, hfit, hst]
      simp only [← hB, hx, h0, add_zero]
    have hfeas : ∀ x : Fin T.t ⊕ Fin (c - 6) → ℝ, (fun a => x (Sum.inl a)) = (0 : Fin T.t → ℝ) →
        ((rQP D C Q lim Cm B T.f (reducedGravity D C + τ0)).Feasible x ↔
          OkR D C lim Cm (reducedGravity D C + (τ0 + prevNull prev *ᵥ (T.Jkt *ᵥ (T.Λ *ᵥ T.f))) + Q.NwJw *ᵥ fun b => x (Sum.inr b))) := by
      intro x h0
      rw [rQP_feasible, h0, add_zero, hB, ← mulVec_mulVec, ← mulVec_mulVec, add_assoc (reducedGravity D C)]
      exact Iff.rfl
    constructor
    · rintro ⟨τ, τR, out, h, h0⟩ j hj
      rcases hx : solve i T.t (c - 6) (rQP D C Q lim Cm B T.f (reducedGravity D C + τ0)) with _ | x
      · rw [rec_chain _ _ _ _ _ hT, hfit, hst] at h
        simp only [← hB, hx] at h
        simp at h
      have hx0 : (fun a => x (Sum.inl a)) = (0 : Fin T.t → ℝ) := by
        have h' := h
        rw [rec_chain _ _ _ _ _ hT, hfit, hst] at h'
        simp only [← hB, hx, Prod.mk.injEq] at h'
        obtain ⟨-, rfl⟩ := h'
        exact h0 _ (List.mem_cons_self ..)
      rw [hstep hx0 hx, Prod.mk.injEq] at h
      obtain ⟨h1, rfl⟩ := h
      rcases j with _ | j
      · refine ⟨τ0 + prevNull prev *ᵥ (T.Jkt *ᵥ (T.Λ *ᵥ T.f)), _, ?_, (hfeas x hx0).mp (hs _ _ _ _ _ hx).1⟩
        rw [List.map_cons, List.take_succ_cons, List.take_zero, rTaskFrom_chain D C R P K prev τ0 0 hT]
        rfl
      · obtain ⟨y, z, e, hz⟩ := (ih hl' _ _ _).mp ⟨τ, τR, _, Prod.ext h1 rfl, fun r hr => h0 r (List.mem_cons_of_mem _ hr)⟩ j (by simpa using hj)
        refine ⟨y, z, ?_, hz⟩
        rw [List.map_cons, List.take_succ_cons, rTaskFrom_chain D C R P K prev τ0 0 hT]
        exact e
    · intro h
      obtain ⟨y, z, e, hz⟩ := h 0 (by simp)
      rw [List.map_cons, List.take_succ_cons, List.take_zero, rTaskFrom_chain D C R P K prev τ0 0 hT] at e
      obtain rfl : τ0 + prevNull prev *ᵥ (T.Jkt *ᵥ (T.Λ *ᵥ T.f)) = y := (Prod.mk.inj (Option.some.inj e)).1
      have hf := (hfeas (Sum.elim 0 z) rfl).mpr hz
      obtain ⟨x, hx⟩ := Option.isSome_iff_exists.mp (hcomp i _ _ _ (rQP_exists B T.f (reducedGravity D C + τ0) hf))
      have hx0 : (fun a => x (Sum.inl a)) = (0 : Fin T.t → ℝ) :=
        funext fun a => rQP_solution_left (fun _ => rfl) hf (hs _ _ _ _ _ hx) a
      obtain ⟨τ, τR, out, h1, h2⟩ := (ih hl' (i + 1) (some (T, nullR C T (prevNull prev))) (τ0 + prevNull prev *ᵥ (T.Jkt *ᵥ (T.Λ *ᵥ T.f)))).mpr
        fun j hj => by
          obtain ⟨y, z, e, hz⟩ := h (j + 1) (by simpa using hj)
          rw [List.map_cons, List.take_succ_cons, rTaskFrom_chain D C R P K prev τ0 0 hT] at e
          exact ⟨y, z, e, hz⟩
      refine ⟨τ, τR, _, (hstep hx0 hx).trans (by simp only [h1]; rfl), fun r hr => ?_⟩
      rcases List.mem_cons.mp hr with rfl | hr
      · exact hx0
      · exact h2 r hr

/-- Tasks on the chains only: the torque without QP needs nothing of the other joints. -/
theorem rTaskFrom_zero (l : List (RTask (Fin k) ν)) (hl : ∀ T ∈ l, T.noncont = false)
    (prev : Option (RTask (Fin k) ν × Matrix (Fin k ⊕ Fin 6) (Fin k ⊕ Fin 6) ℝ)) (τ0 : Fin k ⊕ Fin 6 → ℝ) :
    ∃ y, rTaskFrom D C R P K prev τ0 0 l = some (y, 0) := by
  induction l generalizing prev τ0 with
  | nil => exact ⟨τ0, by cases prev <;> rfl⟩
  | cons T l ih =>
    rw [rTaskFrom_chain D C R P K prev τ0 0 (hl T (List.mem_cons_self ..))]
    exact ih (fun T' h' => hl T' (List.mem_cons_of_mem _ h')) _ _

end

section
variable {k c nc : ℕ} {A : Matrix (RSys (Fin k) (Fin nc)) (RSys (Fin k) (Fin nc)) ℝ} {Jc : Matrix (Fin c) (RSys (Fin k) (Fin nc)) ℝ}
  {G : RSys (Fin k) (Fin nc) → ℝ} {J : Matrix (Fin 6) (Fin nc) ℝ} {D : Reduced (Fin k) (Fin nc)} {S : ContactSpace c (Fin k ⊕ Fin nc)}
  {C : ReducedContact c (Fin k) (Fin nc)} {R : Mat3} {SI : Mat6} {Q : RQPRobot k c}

/-- **C48 with the reduced model (exactly when).**  All tasks on the contact chains, more than one foot, no torque limits, an exact solver: QP task control
with the reduced model succeeds and leaves every command as it is if and only if for each task the torque of the control without QP, for this task and those
above it, is defined and can be made safe for the contacts of the full robot by a torque that does not move it.
What is missing: tasks outside the contact chains, of which no change is recorded (C92). -/
theorem C48_reduced_kept_iff_partial (hA : IsSPD A) (hR : R * Rᵀ = 1)
    (hJ : jInc SI R (baseNc A) = some J) (hcpl : ∀ (i : Fin k) (j : Fin nc), A (.inr (.inl i)) (.inr (.inr j)) = 0)
    (h : reduce vcOf ncOf A⁻¹ J G = some D) (h0 : ∀ r j, Jc r (ncOf j) = 0)
    (hk : k ≤ c) (hB : BaseDetermined Jc) (hS : contactSpace Jc A⁻¹ = some S) (hC : reducedContact D Jc A⁻¹ = some C)
    (h6 : ∀ l ∈ Q.cs, l.type = .c6d) (hp : ∀ l ∈ Q.cs, 0 < l.planeX ∧ 0 < l.planeY) (hc : c = 6 * (active Q.cs).length)
    (hc6 : 6 < c) {f : CodNull C.W} (hN : reducedNwJw C f = some Q.NwJw) (hlim : Q.limit = none)
    {solve : Solver} (hs : solve.Exact) (hcomp : solve.Complete) {ts : List (RTaskIn (Fin k) (Fin nc))} (hts : ∀ T ∈ ts, T.noncont = false)
    {rs : List (RTaskRecord k)} (hlen : ts.length = rs.length) :
    (∃ τ τR out, reducedTaskTorqueQPRec D C R A⁻¹ Q solve ts rs = (.ret 1 τ τR, out) ∧ ∀ r ∈ out, r.fqp.2 = 0) ↔
      ∀ j < ts.length, ∃ τj δ, reducedTaskTorque D C R A⁻¹ (ts.take (j + 1)) = some τj ∧
        (∀ τ' qdd qdd' F F', Motion A Jc G τ' qdd F → Motion A Jc G (τ' + δ) qdd' F' → qdd' = qdd) ∧
        ∀ qdd F, Motion A Jc G (reducedGravityTorque D C + τj + δ) qdd F → ContactsHold Q.cs (F ∘ Fin.cast hc.symm) := by
  obtain ⟨Cm, hst, h'⟩ := stackC_holds h6 hp hc
  have hfit : Q.fit = some none := by rw [RQPRobot.fit, hlim]
  have hsafe := okR_iff_safe hA hR hJ hcpl h h0 hk hB hS hC hc hc6 hN hfit h'
  simp only [reducedTaskTorqueQPRec]
  rcases hm : ts.mapM (calcJKTR D C (A⁻¹ * C.Nc)) with _ | qs
  · constructor
    · rintro ⟨τ, τR, out, h1, -⟩
      simp at h1
    · intro hall
      rcases ts with _ | ⟨T, ts⟩
      · simp at hm
      · obtain ⟨τj, δ, e, -⟩ := hall ts.length (by simp)
        rw [List.take_of_length_le (by simp)] at e
        simp [reducedTaskTorque, hm] at e
  have hq : ∀ T ∈ qs, T.noncont = false := by
    intro T hT
    obtain ⟨T', hT', e⟩ := mem_of_mapM hm T hT
    rw [noncont_of_calc e]; exact hts T' hT'
  have hql : qs.length = ts.length := length_of_mapM hm
  have hfst : (qs.zip rs).map Prod.fst = qs := zip_fst (by omega)
  simp only
  rw [rloop_kept hfit hst hs hcomp _ (fun p hp => hq _ (by rw [← hfst]; exact List.mem_map_of_mem hp)), hfst]
  have hzl : (qs.zip rs).length = ts.length := by rw [List.length_zip]; omega
  rw [hzl]
  refine forall_congr' fun j => forall_congr' fun hj => ?_
  constructor
  · rintro ⟨y, z, e, hz⟩
    obtain ⟨s1, s2, -⟩ := ((hsafe y).1 z).mp hz
    exact ⟨assembleTorque D y 0, _, by simp only [reducedTaskTorque, mapM_take hm (j + 1), e], s1, s2⟩
  · rintro ⟨τj, δ, e, s1, s2⟩
    obtain ⟨y, hy⟩ := rTaskFrom_zero (D := D) (C := C) (R := R) (P := A⁻¹ * C.Nc) (K := (jktR C.ARinvNCR C.Winv (jBaseR R)).map Prod.snd)
      (qs.take (j + 1)) (fun T hT => hq T (List.mem_of_mem_take hT)) none 0
    simp only [reducedTaskTorque, mapM_take hm (j + 1), hy, Option.some.injEq] at e
    subst e
    have hs' : RSafe A Jc G D C Q hc y δ := ⟨s1, s2, by simp [hlim]⟩
    obtain ⟨z, rfl⟩ := (hsafe y).2 δ hs'
    exact ⟨y, z, hy, ((hsafe y).1 z).mpr hs'⟩

end

end Verif.Props
