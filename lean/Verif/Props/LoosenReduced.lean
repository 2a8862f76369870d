import Verif.Props.LoosenMet
import Verif.Props.ReducedModerate

/-!
# C95 for task control with the reduced model
-/

set_option linter.unusedSectionVars false

namespace Verif.Props
open Matrix Verif Verif.Spec Verif.Model

section Level
variable {k c : ℕ} {ν : Type*} [Fintype ν] [DecidableEq ν]

/-- How far the command recorded with a task is from the one asked for. -/
def missR (r : RTaskRecord k) : ℝ := ∑ j, r.fqp.2 j ^ 2

/-- In order of priority: at the first task with another recorded change, that change is smaller. -/
def NoWorseR : List (RTaskRecord k) → List (RTaskRecord k) → Prop
  | [], [] => True
  | r :: rs, r' :: rs' => missR r' < missR r ∨ (r'.fqp = r.fqp ∧ NoWorseR rs rs')
  | _, _ => False

/-- The same robot with other torque limits and contacts. -/
def _root_.Verif.Model.RQPRobot.loosened (Q : RQPRobot k c) (limit' : Option ((m : ℕ) × (Fin m → ℝ))) (cs' : List ContactLink) :
    RQPRobot k c := { Q with limit := limit', cs := cs' }

variable {D : Reduced (Fin k) ν} {C : ReducedContact c (Fin k) ν} {R : Mat3} {P : Matrix (RSys (Fin k) ν) (RSys (Fin k) ν) ℝ}
  {K : Option (Matrix (Fin k ⊕ Fin 6) (Fin 6) ℝ)} {Q : RQPRobot k c} {limit' : Option ((m : ℕ) × (Fin m → ℝ))} {cs' : List ContactLink}
  {solve solve' : Solver} {lim lim' : Option (Fin (k + 6) → ℝ)} {m m' : ℕ} {Cm : Matrix (Fin m) (Fin c) ℝ}
  {Cm' : Matrix (Fin m') (Fin c) ℝ}

theorem rlevel_loosen (hle : ∀ τ, OkR D C lim Cm τ → OkR D C lim' Cm' τ) {t : ℕ} (B : Matrix (Fin k ⊕ Fin 6) (Fin t) ℝ)
    (f : Fin t → ℝ) (τ : Fin k ⊕ Fin 6 → ℝ) {x : Fin t ⊕ Fin (c - 6) → ℝ} (hx : (rQP D C Q lim Cm B f τ).Feasible x) :
    (rQP D C (Q.loosened limit' cs') lim' Cm' B f τ).Feasible x := by
  rw [rQP_feasible] at hx ⊢
  exact hle _ hx

theorem rloop_loosen (hl : Q.fit = some lim) (hc : stackC Q.cs c = some ⟨m, Cm⟩) (hl' : (Q.loosened limit' cs').fit = some lim')
    (hc' : stackC (Q.loosened limit' cs').cs c = some ⟨m', Cm'⟩) (hle : ∀ τ, OkR D C lim Cm τ → OkR D C lim' Cm' τ)
    (hs : solve.Exact) (hs' : solve'.Exact) (l : List (RTask (Fin k) ν × RTaskRecord k)) (i : ℕ)
    (prev : Option (RTask (Fin k) ν × Matrix (Fin k ⊕ Fin 6) (Fin k ⊕ Fin 6) ℝ)) (τ0 : Fin k ⊕ Fin 6 → ℝ)
    (f : Fin 6 → ℝ) (nc : Option (NcSum k ν)) {τ τ' : Fin k ⊕ ν → ℝ} {τR τR' : Fin k ⊕ Fin 6 → ℝ} {out out' : List (RTaskRecord k)}
    (h : rqpFromRec D C R P K Q solve i prev τ0 f nc l = (.ret 1 τ τR, out))
    (h' : rqpFromRec D C R P K (Q.loosened limit' cs') solve' i prev τ0 f nc l = (.ret 1 τ' τR', out')) : NoWorseR out out' := by
  induction l generalizing i prev τ0 f nc out out' with
  | nil =>
    rw [rqpFromRec] at h h'
    obtain ⟨-, rfl⟩ := Prod.mk.inj h
    obtain ⟨-, rfl⟩ := Prod.mk.inj h'
    trivial
  | cons p l ih =>
    obtain ⟨T, r⟩ := p
    rcases hT : T.noncont with _ | _
    · rw [rec_chain _ _ _ _ _ hT, hl, hc] at h
      rw [rec_chain _ _ _ _ _ hT, hl', hc'] at h'
      simp only at h h'
      rcases hx : solve i T.t (c - 6) (rQP D C Q lim Cm (prevNull prev * (T.Jkt * T.Λ)) T.f (reducedGravity D C + τ0)) with _ | x
      · rw [hx] at h
        simp at h
      rcases hx' : solve' i T.t (c - 6) (rQP D C (Q.loosened limit' cs') lim' Cm' (prevNull prev * (T.Jkt * T.Λ)) T.f
          (reducedGravity D C + τ0)) with _ | x'
      · rw [hx'] at h'
        simp at h'
      rw [hx] at h
      rw [hx'] at h'
      simp only [Prod.mk.injEq] at h h'
      obtain ⟨h1, rfl⟩ := h
      obtain ⟨h1', rfl⟩ := h'
      have s1 := hs _ _ _ _ _ hx
      have s2 := hs' _ _ _ _ _ hx'
      by_cases hlt : ∑ a, x' (Sum.inl a) ^ 2 < ∑ a, x (Sum.inl a) ^ 2
      · exact Or.inl hlt
      · have s3 : (rQP D C (Q.loosened limit' cs') lim' Cm' (prevNull prev * (T.Jkt * T.Λ)) T.f (reducedGravity D C + τ0)).IsSolution x := by
          refine ⟨rlevel_loosen hle _ _ _ s1.1, fun y hy => le_trans ?_ (s2.2 y hy)⟩
          rw [rQP_cost, rQP_cost]
          simp only [← pow_two]
          push Not at hlt
          linarith
        have ex := rQP_left_unique D C (Q.loosened limit' cs') lim' Cm' _ _ _ s3 s2
        rw [← ex] at h1'
        refine Or.inr ⟨congrArg (Sigma.mk T.t) ex.symm, ?_⟩
        have := ih _ _ _ _ _ (Prod.ext h1 rfl) (Prod.ext h1' rfl)
        rw [ex] at this ⊢
        exact this
    · rcases prev with _ | ⟨V, N⟩
      · simp [rqpFromRec, hT] at h
      rcases K with _ | Kb
      · simp [rqpFromRec, hT] at h
      simp only [rqpFromRec, hT, if_true] at h h'
      rcases hx : ncTorque D R P Kb V N T with _ | x
      · rw [hx] at h
        simp at h
      rw [hx] at h h'
      simp only [Prod.mk.injEq] at h h'
      obtain ⟨h1, rfl⟩ := h
      obtain ⟨h1', rfl⟩ := h'
      exact Or.inr ⟨rfl, ih _ _ _ _ _ (Prod.ext h1 rfl) (Prod.ext h1' rfl)⟩

/-- a defined call of one robot gives a successful one of another that has a good torque to go on from -/
theorem rloop_success (hl' : (Q.loosened limit' cs').fit = some lim') (hc' : stackC (Q.loosened limit' cs').cs c = some ⟨m', Cm'⟩)
    (hs' : solve'.Sound) (hcomp' : solve'.Complete) (ts : List (RTask (Fin k) ν)) (i : ℕ)
    (prev : Option (RTask (Fin k) ν × Matrix (Fin k ⊕ Fin 6) (Fin k ⊕ Fin 6) ℝ)) (τ0 τ1 : Fin k ⊕ Fin 6 → ℝ)
    (f : Fin 6 → ℝ) (nc : Option (NcSum k ν)) {τ : Fin k ⊕ ν → ℝ} {τR : Fin k ⊕ Fin 6 → ℝ}
    (h : rqpFrom D C R P K Q solve i prev τ0 f nc ts = .ret 1 τ τR)
    (hz : ∃ z, OkR D C lim' Cm' (reducedGravity D C + τ1 + (Q.loosened limit' cs').NwJw *ᵥ z)) :
    ∃ τ' τR', rqpFrom D C R P K (Q.loosened limit' cs') solve' i prev τ1 f nc ts = .ret 1 τ' τR' := by
  induction ts generalizing i prev τ0 τ1 f nc with
  | nil =>
    obtain ⟨z, hz⟩ := hz
    rw [rqpFrom] at h ⊢
    rcases nc with _ | a
    · exact ⟨_, _, rfl⟩
    rcases K with _ | Kb
    · simp [rqpFinish] at h
    obtain ⟨x, hx, -⟩ := rQP_answers hs' hcomp' a.idx (a.N * Kb) f (reducedGravity D C + τ1) hz
    simp only [rqpFinish, hl', hc', hx]
    exact ⟨_, _, rfl⟩
  | cons T rest ih =>
    rcases hT : T.noncont with _ | _
    · obtain ⟨z, hz⟩ := hz
      rw [rqpFrom_chain D C R P K Q solve i prev τ0 f nc hT] at h
      rcases hf : Q.fit with _ | lim
      · rw [hf] at h; simp at h
      rcases hst : stackC Q.cs c with _ | ⟨m, Cm⟩
      · rw [hf, hst] at h; simp at h
      rw [hf, hst] at h
      simp only at h
      rcases hx : solve i T.t (c - 6) (rQP D C Q lim Cm (prevNull prev * (T.Jkt * T.Λ)) T.f (reducedGravity D C + τ0)) with _ | x
      · rw [hx] at h; simp at h
      rw [hx] at h
      obtain ⟨y, hy, hok⟩ := rQP_answers hs' hcomp' i (prevNull prev * (T.Jkt * T.Λ)) T.f (reducedGravity D C + τ1) hz
      rw [rqp_step hl' hc' i prev τ1 f nc hT rest hy]
      refine ih _ _ _ _ _ _ h ⟨fun b => y (.inr b), ?_⟩
      rwa [← mulVec_mulVec, ← mulVec_mulVec, add_assoc (reducedGravity D C)] at hok
    · rcases prev with _ | ⟨V, N⟩
      · simp [rqpFrom, hT] at h
      rcases K with _ | Kb
      · simp [rqpFrom, hT] at h
      simp only [rqpFrom, hT, if_true] at h ⊢
      rcases hx : ncTorque D R P Kb V N T with _ | x
      · rw [hx] at h
        simp at h
      rw [hx] at h
      exact ih _ _ _ _ _ _ h hz

end Level

section Call
variable {k c : ℕ} {ν : Type*} [Fintype ν] [DecidableEq ν] {D : Reduced (Fin k) ν} {C : ReducedContact c (Fin k) ν} {R : Mat3}
  {Ainv : Matrix (RSys (Fin k) ν) (RSys (Fin k) ν) ℝ} {Q : RQPRobot k c} {limit' : Option ((m : ℕ) × (Fin m → ℝ))}
  {cs' : List ContactLink} {solve solve' : Solver} {lim lim' : Option (Fin (k + 6) → ℝ)}

theorem okR_loosen (h6 : ∀ l ∈ Q.cs, l.type = .c6d) (hp : ∀ l ∈ Q.cs, 0 < l.planeX ∧ 0 < l.planeY) (hc : c = 6 * (active Q.cs).length)
    (hl : LimitLe lim lim') (hcs : List.Forall₂ ContactLe Q.cs cs') :
    ∃ m Cm m' Cm', stackC Q.cs c = some ⟨m, Cm⟩ ∧ stackC (Q.loosened limit' cs').cs c = some ⟨m', Cm'⟩ ∧
      ∀ τ, OkR D C lim Cm τ → OkR D C lim' Cm' τ := by
  obtain ⟨h6', hp', hc'⟩ := loosen_contacts h6 hp hc hcs
  obtain ⟨Cm, e, h⟩ := stackC_holds h6 hp hc
  obtain ⟨Cm', e', h'⟩ := stackC_holds h6' hp' hc'
  refine ⟨_, Cm, _, Cm', e, e', fun τ ⟨o1, o2⟩ => ⟨fun L' hL' j => ?_, ?_⟩⟩
  · obtain ⟨L, e1, hle⟩ := hl L' hL'
    exact (o1 L e1 j).trans (hle _)
  · exact (h' _).mpr (contactsHold_mono hcs hc hc' ((h _).mp o2))

/-- **C95, reduced model (control does not begin to fail).**  If task control with the reduced model succeeds, it succeeds with the same
tasks when torque limits are wider and feet and friction larger. -/
theorem C95_reduced_success (h6 : ∀ l ∈ Q.cs, l.type = .c6d) (hp : ∀ l ∈ Q.cs, 0 < l.planeX ∧ 0 < l.planeY)
    (hc : c = 6 * (active Q.cs).length) (hf : Q.fit = some lim) (hf' : (Q.loosened limit' cs').fit = some lim') (hl : LimitLe lim lim')
    (hcs : List.Forall₂ ContactLe Q.cs cs') (hs : solve.Sound) (hs' : solve'.Sound) (hcomp' : solve'.Complete)
    {ts : List (RTaskIn (Fin k) ν)} {τ : Fin k ⊕ ν → ℝ} {τR : Fin k ⊕ Fin 6 → ℝ}
    (h : reducedTaskTorqueQP D C R Ainv Q solve ts = .ret 1 τ τR) :
    ∃ τ' τR', reducedTaskTorqueQP D C R Ainv (Q.loosened limit' cs') solve' ts = .ret 1 τ' τR' := by
  obtain ⟨m, Cm, m', Cm', hst, hst', hle⟩ := okR_loosen (D := D) (C := C) (limit' := limit') h6 hp hc hl hcs
  simp only [reducedTaskTorqueQP] at h ⊢
  rcases hm : ts.mapM (calcJKTR D C (Ainv * C.Nc)) with _ | qs
  · rw [hm] at h; simp at h
  rw [hm] at h
  simp only at h ⊢
  rcases qs with _ | ⟨T, qs⟩
  · exact ⟨_, _, rfl⟩
  rcases hT : T.noncont with _ | _
  · rw [rqpFrom_chain D C R _ _ Q solve 0 none 0 0 none hT, hf, hst] at h
    simp only at h
    rcases hx : solve 0 T.t (c - 6) (rQP D C Q lim Cm (prevNull (ν := ν) none * (T.Jkt * T.Λ)) T.f (reducedGravity D C + 0)) with _ | x
    · rw [hx] at h; simp at h
    rw [hx] at h
    have hfe := rlevel_loosen (Q := Q) (limit' := limit') (cs' := cs') hle _ _ _ (hs _ _ _ _ _ hx)
    obtain ⟨y, hy⟩ := Option.isSome_iff_exists.mp (hcomp' 0 _ _ _ (rQP_exists _ _ _ hfe))
    have hok := (rQP_feasible D C (Q.loosened limit' cs') lim' Cm' _ _ _ y).mp (hs' _ _ _ _ _ hy)
    rw [rqp_step hf' hst' 0 none 0 0 none hT qs hy]
    refine rloop_success hf' hst' hs' hcomp' qs _ _ _ _ _ _ h ⟨fun b => y (.inr b), ?_⟩
    rwa [← mulVec_mulVec, ← mulVec_mulVec, add_assoc (reducedGravity D C)] at hok
  · simp [rqpFrom, hT] at h

/-- **C95, reduced model (no task is worse before one is better).**  In order of priority, the first task that is commanded something else
is commanded something nearer to what it was asked for.  Partial: the tasks outside the contact chains, for which no change is
recorded, are not compared. -/
theorem C95_reduced_no_worse_partial (h6 : ∀ l ∈ Q.cs, l.type = .c6d) (hp : ∀ l ∈ Q.cs, 0 < l.planeX ∧ 0 < l.planeY)
    (hc : c = 6 * (active Q.cs).length) (hf : Q.fit = some lim) (hf' : (Q.loosened limit' cs').fit = some lim') (hl : LimitLe lim lim')
    (hcs : List.Forall₂ ContactLe Q.cs cs') (hs : solve.Exact) (hs' : solve'.Exact) {ts : List (RTaskIn (Fin k) ν)}
    {rs : List (RTaskRecord k)} {τ τ' : Fin k ⊕ ν → ℝ} {τR τR' : Fin k ⊕ Fin 6 → ℝ} {out out' : List (RTaskRecord k)}
    (h : reducedTaskTorqueQPRec D C R Ainv Q solve ts rs = (.ret 1 τ τR, out))
    (h' : reducedTaskTorqueQPRec D C R Ainv (Q.loosened limit' cs') solve' ts rs = (.ret 1 τ' τR', out')) : NoWorseR out out' := by
  obtain ⟨m, Cm, m', Cm', hst, hst', hle⟩ := okR_loosen (D := D) (C := C) (limit' := limit') h6 hp hc hl hcs
  simp only [reducedTaskTorqueQPRec] at h h'
  rcases hm : ts.mapM (calcJKTR D C (Ainv * C.Nc)) with _ | qs
  · rw [hm] at h; simp at h
  rw [hm] at h h'
  exact rloop_loosen hf hst hf' hst' hle hs hs' _ _ _ _ _ _ h h'

end Call

/-- the robot of C58 on one foot, with a task on a leg and one on an arm: limit ten, and limit twenty with a better foot -/
example {solve : Solver} (he : solve.Exact) (hcomp : solve.Complete) : ∃ D C τ τR τ' τR' out out',
    reducedTaskTorqueQPRec D C 1 (exRed 6)⁻¹ FreeQP.robot solve
      [exRow (legRow 5) 0 true 0, exRow (armRow 1) 60 false 0] [.fresh 6, .fresh 6] = (.ret 1 τ τR, out) ∧
    reducedTaskTorqueQPRec D C 1 (exRed 6)⁻¹ (FreeQP.robot.loosened (some ⟨12, fun _ => 20⟩) (ArmQP.cs.map betterFoot)) solve
      [exRow (legRow 5) 0 true 0, exRow (armRow 1) 60 false 0] [.fresh 6, .fresh 6] = (.ret 1 τ' τR', out') ∧
    NoWorseR out out' := by
  obtain ⟨D, C, τ, τR, -, -, h, -⟩ := C58_free_task_unchecked he hcomp
  have hl : LimitLe (some fun _ : Fin (6 + 6) => (10 : ℝ)) (some fun _ => 20) := fun L' hL' => ⟨_, rfl, fun j => by
    obtain rfl := Option.some.inj hL'
    norm_num⟩
  have hsound : solve.Sound := fun k d t y x hx => (he k d t y x hx).1
  have hcs := betterFeet_le FreeQP.robot.cs
  obtain ⟨τ', τR', h'⟩ := C95_reduced_success (Q := FreeQP.robot) (limit' := some ⟨12, fun _ => 20⟩) ArmQP.six ArmQP.plane ArmQP.dof rfl rfl hl hcs
    hsound hsound hcomp h
  rw [← C92_reduced_result (rs := [.fresh 6, .fresh 6]) rfl] at h h'
  exact ⟨D, C, τ, τR, τ', τR', _, _, Prod.ext h rfl, Prod.ext h' rfl,
    C95_reduced_no_worse_partial (Q := FreeQP.robot) (limit' := some ⟨12, fun _ => 20⟩) ArmQP.six ArmQP.plane ArmQP.dof rfl rfl hl hcs he he
      (Prod.ext h rfl) (Prod.ext h' rfl)⟩

end Verif.Props
