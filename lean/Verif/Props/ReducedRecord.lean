import Verif.Model.ReducedRecord
import Verif.Lemmas.ReducedFail
import Verif.Props.ReducedFail

/-!
# C92 with the reduced model: what task control records with each task
-/

set_option linter.unusedSectionVars false

namespace Verif.Props
open Matrix Verif Verif.Spec Verif.Model

variable {k c : ℕ} {ν : Type*} [Fintype ν] [DecidableEq ν]

/-- The task with its command changed as recorded; a task outside the contact chains has no recorded change. -/
def rfollowed (T : RTask (Fin k) ν) (r : RTaskRecord k) : RTask (Fin k) ν :=
  if T.noncont then T
  else if h : r.fqp.1 = T.t then { T with f := T.f + r.fqp.2 ∘ Fin.cast h.symm } else T

/-- The record `r'` of the task `p.1` after a call that got past it, with the record `p.2` before the call. -/
def RHandled (c : ℕ) (p : RTask (Fin k) ν × RTaskRecord k) (r' : RTaskRecord k) : Prop :=
  if p.1.noncont then r'.err = p.2.err ∧ r'.fqp = p.2.fqp ∧ r'.cqp = p.2.cqp
  else r'.err = 0 ∧ (∃ a, r'.fqp = ⟨p.1.t, a⟩) ∧ ∃ z, r'.cqp = ⟨c - 6, z⟩

/-- A task with another command. -/
def rcommand (T : RTask (Fin k) ν) (f : Fin T.t → ℝ) : RTask (Fin k) ν := { T with f := f }

theorem rfollowed_of {T : RTask (Fin k) ν} (hT : T.noncont = false) {r : RTaskRecord k} {a : Fin T.t → ℝ} (h : r.fqp = ⟨T.t, a⟩) :
    rfollowed T r = rcommand T (T.f + a) := by
  rcases r with ⟨⟨t, b⟩, q, e, τ⟩
  obtain ⟨rfl, h2⟩ := Sigma.mk.inj_iff.mp h
  obtain rfl := eq_of_heq h2
  unfold rfollowed
  rw [if_neg (by simp [hT])]
  exact dif_pos rfl

section Loop
variable {D : Reduced (Fin k) ν} {C : ReducedContact c (Fin k) ν} {R : Mat3} {P : Matrix (RSys (Fin k) ν) (RSys (Fin k) ν) ℝ}
  {K : Option (Matrix (Fin k ⊕ Fin 6) (Fin 6) ℝ)} {Q : RQPRobot k c} {solve : Solver}

theorem rec_chain (i : ℕ) (prev : Option (RTask (Fin k) ν × Matrix (Fin k ⊕ Fin 6) (Fin k ⊕ Fin 6) ℝ)) (τR : Fin k ⊕ Fin 6 → ℝ)
    (f : Fin 6 → ℝ) (nc : Option (NcSum k ν)) {T : RTask (Fin k) ν} (hT : T.noncont = false) (r : RTaskRecord k)
    (rest : List (RTask (Fin k) ν × RTaskRecord k)) :
    rqpFromRec D C R P K Q solve i prev τR f nc ((T, r) :: rest) =
      match Q.fit, stackC Q.cs c with
      | some lim, some ⟨_, Cm⟩ =>
        match solve i T.t (c - 6) (rQP D C Q lim Cm (prevNull prev * (T.Jkt * T.Λ)) T.f (reducedGravity D C + τR)) with
        | none => (.ret 0 0 τR, r.failed T.t :: rest.map Prod.snd)
        | some x =>
          let τh := prevNull prev *ᵥ (T.Jkt *ᵥ (T.Λ *ᵥ (T.f + fun a => x (Sum.inl a))))
          let q := rqpFromRec D C R P K Q solve (i + 1) (some (T, nullR C T (prevNull prev))) (τR + τh) f nc rest
          (q.1, { r.solved T.t (c - 6) x with part := τh } :: q.2)
      | _, _ => (.undefined, r :: rest.map Prod.snd) := by
  rcases prev with _ | ⟨U, N⟩ <;> simp only [rqpFromRec, hT, prevNull, Bool.false_eq_true, if_false] <;>
    rcases Q.fit with _ | lim <;> rcases stackC Q.cs c with _ | ⟨m, Cm⟩ <;> rfl

theorem rec_fst (l : List (RTask (Fin k) ν × RTaskRecord k)) (i : ℕ)
    (prev : Option (RTask (Fin k) ν × Matrix (Fin k ⊕ Fin 6) (Fin k ⊕ Fin 6) ℝ)) (τR : Fin k ⊕ Fin 6 → ℝ)
    (f : Fin 6 → ℝ) (nc : Option (NcSum k ν)) :
    (rqpFromRec D C R P K Q solve i prev τR f nc l).1 = rqpFrom D C R P K Q solve i prev τR f nc (l.map Prod.fst) := by
  induction l generalizing i prev τR f nc with
  | nil => rw [rqpFromRec, List.map_nil, rqpFrom]
  | cons p l ih =>
    obtain ⟨T, r⟩ := p
    rcases hT : T.noncont with _ | _
    · rw [rec_chain _ _ _ _ _ hT, List.map_cons, rqpFrom_chain D C R P K Q solve i prev τR f nc hT]
      rcases Q.fit with _ | lim
      · rfl
      rcases stackC Q.cs c with _ | ⟨m, Cm⟩
      · rfl
      simp only
      rcases solve i T.t (c - 6) (rQP D C Q lim Cm (prevNull prev * (T.Jkt * T.Λ)) T.f (reducedGravity D C + τR)) with _ | x
      · rfl
      · exact ih _ _ _ _ _
    · rcases prev with _ | ⟨U, N⟩
      · simp [rqpFrom, rqpFromRec, hT]
      rcases K with _ | Kb
      · simp [rqpFrom, rqpFromRec, hT]
      simp only [rqpFrom, rqpFromRec, hT, if_true, List.map_cons]
      rcases ncTorque D R P Kb U N T with _ | x
      · rfl
      · exact ih _ _ _ _ _

/-- The command of the task above does not enter. -/
theorem rTaskFrom_command (T : RTask (Fin k) ν) (g : Fin T.t → ℝ) (N : Matrix (Fin k ⊕ Fin 6) (Fin k ⊕ Fin 6) ℝ)
    (τR : Fin k ⊕ Fin 6 → ℝ) (τN : ν → ℝ) (l : List (RTask (Fin k) ν)) :
    rTaskFrom D C R P K (some (rcommand T g, N)) τR τN l = rTaskFrom D C R P K (some (T, N)) τR τN l := by
  rcases l with _ | ⟨U, l⟩ <;> simp only [rTaskFrom]
  rcases K with _ | Kb
  · rfl
  · have : ncTorque D R P Kb (rcommand T g) N U = ncTorque D R P Kb T N U := by
      rcases T with ⟨T, A1, A2, A3, A4⟩
      rcases T
      unfold ncTorque rcommand
      rcases A4 with _ | Jn <;> rfl
    simp only [this]

/-- A torque on the joints of the contact chains. -/
def onChains (z : Fin k → ℝ) : Fin k ⊕ ν → ℝ := Sum.elim z fun _ => 0

theorem finish_one {τR : Fin k ⊕ Fin 6 → ℝ} {f : Fin 6 → ℝ} {nc : Option (NcSum k ν)} {v : ℕ} {τ : Fin k ⊕ ν → ℝ}
    {τR' : Fin k ⊕ Fin 6 → ℝ} (h : rqpFinish D C K Q solve τR f nc = .ret v τ τR') :
    v = 1 ∧ (nc = none ∧ τR' = τR ∧ τ = assembleTorque D τR 0 ∨
        ∃ a Kb q, nc = some a ∧ K = some Kb ∧ τR' = τR + a.sumR ∧
          τ = assembleTorque D τR' a.sumN + onChains fun i => (Kb *ᵥ q) (.inl i)) ∨
      v = 0 ∧ nc.isSome ∧ τR' = τR ∧ τ = 0 := by
  rcases nc with _ | a
  · simp only [rqpFinish, RCtrlResult.ret.injEq] at h
    obtain ⟨rfl, rfl, rfl⟩ := h
    exact .inl ⟨rfl, .inl ⟨rfl, rfl, rfl⟩⟩
  unfold rqpFinish at h
  simp only at h
  rcases K with _ | Kb
  · simp at h
  rcases hf : Q.fit with _ | lim
  · rw [hf] at h
    cases h
  rcases hc : stackC Q.cs c with _ | ⟨m, Cm⟩
  · rw [hf, hc] at h
    cases h
  · rw [hf, hc] at h
    simp only at h
    split at h
    · simp only [RCtrlResult.ret.injEq] at h
      obtain ⟨rfl, rfl, rfl⟩ := h
      exact .inr ⟨rfl, rfl, rfl, rfl⟩
    · simp only [RCtrlResult.ret.injEq] at h
      obtain ⟨rfl, rfl, rfl⟩ := h
      exact .inl ⟨rfl, .inr ⟨a, Kb, _, rfl, rfl, rfl, rfl⟩⟩

/-- What the tasks outside the contact chains have been given so far. -/
def ncR : Option (NcSum k ν) → Fin k ⊕ Fin 6 → ℝ
  | none => 0
  | some a => a.sumR
def ncN : Option (NcSum k ν) → ν → ℝ
  | none => 0
  | some a => a.sumN

theorem rec_success (l : List (RTask (Fin k) ν × RTaskRecord k)) (i : ℕ)
    (prev : Option (RTask (Fin k) ν × Matrix (Fin k ⊕ Fin 6) (Fin k ⊕ Fin 6) ℝ)) (τ0 : Fin k ⊕ Fin 6 → ℝ)
    (f : Fin 6 → ℝ) (nc : Option (NcSum k ν)) {τ : Fin k ⊕ ν → ℝ} {τR : Fin k ⊕ Fin 6 → ℝ} {out : List (RTaskRecord k)}
    (h : rqpFromRec D C R P K Q solve i prev τ0 f nc l = (.ret 1 τ τR, out)) {s m : ℕ}
    (ho : ((l.map Prod.fst).filter (·.noncont)).map (·.ncOrder) = List.range' s m) (hs0 : nc = none → s = 0)
    (hs1 : nc.isSome → 1 ≤ s) :
    List.Forall₂ (RHandled c) l out ∧ τR = τ0 + ncR nc + (out.map (·.part)).sum ∧
      ∃ y z, rTaskFrom D C R P K prev (τ0 + ncR nc) (ncN nc) (List.zipWith rfollowed (l.map Prod.fst) out) = some (τR, y) ∧
        τ = assembleTorque D τR y + onChains z ∧
        (nc = none → (∀ p ∈ l, p.1.noncont = false) → z = 0) ∧ ∀ Kb, K = some Kb → ∃ q : Fin 6 → ℝ, z = fun i => (Kb *ᵥ q) (.inl i) := by
  induction l generalizing i prev τ0 f nc out s m with
  | nil =>
    rw [rqpFromRec] at h
    obtain ⟨h1, rfl⟩ := Prod.mk.inj h
    rcases finish_one h1 with ⟨-, h2⟩ | ⟨h2, -⟩
    · rcases h2 with ⟨rfl, rfl, rfl⟩ | ⟨a, Kb, q, rfl, rfl, rfl, rfl⟩
      · refine ⟨.nil, by simp [ncR], 0, 0, ?_, ?_, fun _ _ => rfl, fun Kb _ => ⟨0, ?_⟩⟩
        · simp [rTaskFrom, ncR, ncN]
        · ext j
          rcases j with j | j <;> simp [onChains]
        · rw [mulVec_zero]
          rfl
      · refine ⟨.nil, by simp [ncR], a.sumN, _, ?_, rfl, by simp, fun Kb' e => ⟨q, ?_⟩⟩
        · simp [rTaskFrom, ncR, ncN]
        · obtain rfl := Option.some.inj e
          rfl
    · exact absurd h2 (by norm_num)
  | cons p l ih =>
    obtain ⟨T, r⟩ := p
    rcases hT : T.noncont with _ | _
    · rw [rec_chain _ _ _ _ _ hT] at h
      rcases hl : Q.fit with _ | lim
      · rw [hl] at h; simp at h
      rcases hc : stackC Q.cs c with _ | ⟨m', Cm⟩
      · rw [hl, hc] at h; simp at h
      rw [hl, hc] at h
      simp only at h
      rcases hx : solve i T.t (c - 6) (rQP D C Q lim Cm (prevNull prev * (T.Jkt * T.Λ)) T.f (reducedGravity D C + τ0)) with _ | x
      · rw [hx] at h
        simp at h
      rw [hx] at h
      simp only [Prod.mk.injEq] at h
      obtain ⟨h1, rfl⟩ := h
      rw [List.map_cons, List.filter_cons_of_neg (by simp [hT])] at ho
      obtain ⟨i1, i2, y, z, i3, i4, i5, i6⟩ := ih _ _ _ _ _ (Prod.ext h1 rfl) ho hs0 hs1
      refine ⟨.cons ?_ i1, ?_, y, z, ?_, i4, fun e a => i5 e fun p hp => a p (List.mem_cons_of_mem _ hp), i6⟩
      · unfold RHandled
        rw [if_neg (by simp [hT])]
        exact ⟨rfl, ⟨_, rfl⟩, ⟨_, rfl⟩⟩
      · rw [i2, List.map_cons, List.sum_cons]
        abel
      · rw [List.map_cons, List.zipWith_cons_cons, rfollowed_of hT (a := fun a => x (Sum.inl a)) rfl]
        rw [rTaskFrom_chain D C R P K prev _ _ (T := rcommand T (T.f + fun a => x (Sum.inl a))) hT, rTaskFrom_command]
        refine Eq.trans ?_ i3
        congr 1
        show τ0 + ncR nc + prevNull prev *ᵥ (T.Jkt *ᵥ (T.Λ *ᵥ (T.f + fun a => x (Sum.inl a)))) = _
        abel
    · rcases prev with _ | ⟨U, N⟩
      · simp [rqpFromRec, hT] at h
      rcases K with _ | Kb
      · simp [rqpFromRec, hT] at h
      simp only [rqpFromRec, hT, if_true] at h
      rcases hx : ncTorque D R P Kb U N T with _ | x
      · rw [hx] at h
        simp at h
      rw [hx] at h
      simp only [Prod.mk.injEq] at h
      obtain ⟨h1, rfl⟩ := h
      rw [List.map_cons, List.filter_cons_of_pos (by simp [hT]), List.map_cons] at ho
      obtain ⟨m, rfl⟩ : ∃ m', m = m' + 1 := by
        rcases m with _ | m
        · simp at ho
        · exact ⟨m, rfl⟩
      rw [List.range'_succ] at ho
      obtain ⟨o1, o2⟩ := List.cons.inj ho
      have key : ∃ a, (if T.ncOrder = 0 then some ⟨i, N, x.1, x.2⟩
            else nc.map fun a => { a with sumR := a.sumR + x.1, sumN := a.sumN + x.2 }) = some a ∧
          ncR nc + x.1 = a.sumR ∧ ncN nc + x.2 = a.sumN := by
        rcases nc with _ | a
        · rw [hs0 rfl] at o1
          rw [if_pos o1]
          exact ⟨_, rfl, by simp [ncR], by simp [ncN]⟩
        · have := hs1 rfl
          rw [if_neg (by simp only at o1; omega)]
          exact ⟨_, rfl, rfl, rfl⟩
      obtain ⟨a, e, eR, eN⟩ := key
      rw [e] at h1
      rw [e]
      obtain ⟨i1, i2, y, z, i3, i4, -, i6⟩ := ih _ _ _ _ (some a) (Prod.ext h1 rfl) o2 (by simp) (by simp)
      refine ⟨.cons ?_ i1, ?_, y, z, ?_, i4, fun _ b => ?_, i6⟩
      · unfold RHandled
        rw [if_pos hT]
        exact ⟨rfl, rfl, rfl⟩
      · rw [i2, List.map_cons, List.sum_cons]
        show τ0 + a.sumR + _ = _
        rw [← eR]
        abel
      · rw [List.map_cons, List.zipWith_cons_cons]
        have : rfollowed T ({ r with part := x.1 } : RTaskRecord k) = T := by
          unfold rfollowed
          rw [if_pos hT]
        rw [this]
        simp only [rTaskFrom, hT, if_true, hx]
        refine Eq.trans ?_ i3
        show _ = rTaskFrom D C R P (some Kb) (some (T, N)) (τ0 + a.sumR) a.sumN _
        rw [← eR, ← eN, add_assoc]
      · have := b _ (List.mem_cons_self ..)
        simp [hT] at this

theorem rec_failure (l : List (RTask (Fin k) ν × RTaskRecord k)) (i : ℕ)
    (prev : Option (RTask (Fin k) ν × Matrix (Fin k ⊕ Fin 6) (Fin k ⊕ Fin 6) ℝ)) (τ0 : Fin k ⊕ Fin 6 → ℝ)
    (f : Fin 6 → ℝ) (nc : Option (NcSum k ν)) {v : ℕ} {τ : Fin k ⊕ ν → ℝ} {τR : Fin k ⊕ Fin 6 → ℝ} {out : List (RTaskRecord k)}
    (h : rqpFromRec D C R P K Q solve i prev τ0 f nc l = (.ret v τ τR, out)) (hv : v ≠ 1) :
    v = 0 ∧ ((∃ above T r below out', l = above ++ (T, r) :: below ∧ T.noncont = false ∧
        out = out' ++ r.failed T.t :: below.map Prod.snd ∧ List.Forall₂ (RHandled c) above out') ∨
      List.Forall₂ (RHandled c) l out ∧ (nc.isSome ∨ ∃ p ∈ l, p.1.noncont = true)) := by
  induction l generalizing i prev τ0 f nc out with
  | nil =>
    rw [rqpFromRec] at h
    obtain ⟨h1, rfl⟩ := Prod.mk.inj h
    rcases finish_one h1 with ⟨h2, -⟩ | ⟨h2, h3, -⟩
    · exact absurd h2 hv
    · exact ⟨h2, .inr ⟨.nil, .inl h3⟩⟩
  | cons p l ih =>
    obtain ⟨T, r⟩ := p
    rcases hT : T.noncont with _ | _
    · rw [rec_chain _ _ _ _ _ hT] at h
      rcases hl : Q.fit with _ | lim
      · rw [hl] at h; simp at h
      rcases hc : stackC Q.cs c with _ | ⟨m', Cm⟩
      · rw [hl, hc] at h; simp at h
      rw [hl, hc] at h
      simp only at h
      rcases hx : solve i T.t (c - 6) (rQP D C Q lim Cm (prevNull prev * (T.Jkt * T.Λ)) T.f (reducedGravity D C + τ0)) with _ | x
      · rw [hx] at h
        simp only [Prod.mk.injEq, RCtrlResult.ret.injEq] at h
        obtain ⟨⟨rfl, -, -⟩, rfl⟩ := h
        exact ⟨rfl, .inl ⟨[], T, r, l, [], rfl, hT, rfl, .nil⟩⟩
      rw [hx] at h
      simp only [Prod.mk.injEq] at h
      obtain ⟨h1, rfl⟩ := h
      have hd : RHandled c (T, r) { r.solved T.t (c - 6) x with
          part := prevNull prev *ᵥ (T.Jkt *ᵥ (T.Λ *ᵥ (T.f + fun a => x (Sum.inl a)))) } := by
        unfold RHandled
        rw [if_neg (by simp [hT])]
        exact ⟨rfl, ⟨_, rfl⟩, ⟨_, rfl⟩⟩
      obtain ⟨i1, ⟨above, T', r', below, out', rfl, i2, i3, i4⟩ | ⟨i2, i3⟩⟩ := ih _ _ _ _ _ (Prod.ext h1 rfl)
      · refine ⟨i1, .inl ⟨(T, r) :: above, T', r', below, _ :: out', rfl, i2, ?_, .cons hd i4⟩⟩
        exact congrArg (List.cons _) i3
      · refine ⟨i1, .inr ⟨.cons hd i2, i3.imp_right ?_⟩⟩
        rintro ⟨p, hp, e⟩
        exact ⟨p, List.mem_cons_of_mem _ hp, e⟩
    · rcases prev with _ | ⟨U, N⟩
      · simp [rqpFromRec, hT] at h
      rcases K with _ | Kb
      · simp [rqpFromRec, hT] at h
      simp only [rqpFromRec, hT, if_true] at h
      rcases hx : ncTorque D R P Kb U N T with _ | x
      · rw [hx] at h
        simp at h
      rw [hx] at h
      simp only [Prod.mk.injEq] at h
      obtain ⟨h1, rfl⟩ := h
      have hd : RHandled c (T, r) { r with part := x.1 } := by
        unfold RHandled
        rw [if_pos hT]
        exact ⟨rfl, rfl, rfl⟩
      obtain ⟨i1, ⟨above, T', r', below, out', rfl, i2, i3, i4⟩ | ⟨i2, i3⟩⟩ := ih _ _ _ _ _ (Prod.ext h1 rfl)
      · refine ⟨i1, .inl ⟨(T, r) :: above, T', r', below, _ :: out', rfl, i2, ?_, .cons hd i4⟩⟩
        exact congrArg (List.cons _) i3
      · exact ⟨i1, .inr ⟨.cons hd i2, .inr ⟨_, List.mem_cons_self .., hT⟩⟩⟩

end Loop

/-- The task as the caller describes it, with its command changed as recorded. -/
def followedIn (T : RTaskIn (Fin k) ν) (r : RTaskRecord k) : RTaskIn (Fin k) ν :=
  if T.noncont then T
  else if h : r.fqp.1 = T.t then { T with f := T.f + r.fqp.2 ∘ Fin.cast h.symm } else T

section Call
variable {D : Reduced (Fin k) ν} {C : ReducedContact c (Fin k) ν} {R : Mat3} {Ainv : Matrix (RSys (Fin k) ν) (RSys (Fin k) ν) ℝ}
  {Q : RQPRobot k c} {solve : Solver}

theorem calc_command {P : Matrix (RSys (Fin k) ν) (RSys (Fin k) ν) ℝ} {q : RTask (Fin k) ν}
    (h : calcJKTR D C P q.toRTaskIn = some q) (g : Fin q.t → ℝ) : calcJKTR D C P (rcommand q g).toRTaskIn = some (rcommand q g) := by
  rcases q with ⟨⟨t, J, f, cmm, red, non, o⟩, JR, Λ, Jkt, JNC⟩
  change calcJKTR D C P ⟨t, J, g, cmm, red, non, o⟩ = some ⟨⟨t, J, g, cmm, red, non, o⟩, JR, Λ, Jkt, JNC⟩
  unfold calcJKTR at h ⊢
  simp only at h ⊢
  rcases cmm <;> rcases red <;> rcases non <;>
    simp only [Bool.false_eq_true, if_false, if_true, Bool.not_true, Bool.not_false, Bool.and_true, Bool.and_false, Bool.true_and,
      Bool.false_and, reduceCtorEq] at h ⊢ <;>
  · obtain ⟨x, hx, e⟩ := Option.map_eq_some_iff.mp h
    refine Option.map_eq_some_iff.mpr ⟨x, hx, ?_⟩
    simp only [RTask.mk.injEq, heq_eq_eq, true_and] at e ⊢
    exact e

theorem calc_followed {P : Matrix (RSys (Fin k) ν) (RSys (Fin k) ν) ℝ} {T : RTaskIn (Fin k) ν} {q : RTask (Fin k) ν}
    (h : calcJKTR D C P T = some q) (r : RTaskRecord k) : calcJKTR D C P (followedIn T r) = some (rfollowed q r) := by
  obtain rfl := toIn_of_calc h
  unfold followedIn rfollowed
  split_ifs
  · exact h
  · exact calc_command h _
  · exact h

theorem calc_followed_all {P : Matrix (RSys (Fin k) ν) (RSys (Fin k) ν) ℝ} {ts : List (RTaskIn (Fin k) ν)} {qs : List (RTask (Fin k) ν)}
    (h : ts.mapM (calcJKTR D C P) = some qs) (out : List (RTaskRecord k)) :
    (List.zipWith followedIn ts out).mapM (calcJKTR D C P) = some (List.zipWith rfollowed qs out) := by
  induction ts generalizing qs out with
  | nil =>
    simp only [List.mapM_nil, Option.pure_def, Option.some.injEq] at h
    subst h
    rfl
  | cons T ts ih =>
    simp only [List.mapM_cons, Option.pure_def, Option.bind_eq_bind, Option.bind_eq_some_iff, Option.some.injEq] at h
    obtain ⟨q, e, qs, e', rfl⟩ := h
    rcases out with _ | ⟨r, out⟩
    · rfl
    · simp only [List.zipWith_cons_cons, List.mapM_cons, Option.pure_def, Option.bind_eq_bind, calc_followed e, ih e', Option.bind_some]

theorem zip_fst {qs : List (RTask (Fin k) ν)} {rs : List (RTaskRecord k)} (h : qs.length = rs.length) :
    (qs.zip rs).map Prod.fst = qs := List.map_fst_zip h.le

/-- C92, reduced model.  The call with the records is the call without them. -/
theorem C92_reduced_result {ts : List (RTaskIn (Fin k) ν)} {rs : List (RTaskRecord k)} (hl : ts.length = rs.length) :
    (reducedTaskTorqueQPRec D C R Ainv Q solve ts rs).1 = reducedTaskTorqueQP D C R Ainv Q solve ts := by
  simp only [reducedTaskTorqueQPRec, reducedTaskTorqueQP]
  rcases hm : ts.mapM (calcJKTR D C (Ainv * C.Nc)) with _ | qs
  · rfl
  · simp only
    rw [rec_fst, zip_fst (by rw [← hl]; exact length_of_mapM hm)]

/-- C92, reduced model (success).  Tasks outside the contact chains numbered from zero on, as `ReducedCalcTaskSpace` numbers them.
Whatever was recorded before: after a successful call the tasks on the contact chains have error flag 0, a change of the command and a
contact part; the torque of the reduced model is the sum of the parts recorded with the tasks; and the joint torque is the one without
QP for the commands changed as recorded, up to a torque on the joints of the contact chains, which is zero without tasks outside them.
What is missing: tasks outside the contact chains keep flag, change and contact part of earlier calls, and the correction made for
them is recorded with none of them. -/
theorem C92_reduced_success_partial {ts : List (RTaskIn (Fin k) ν)} {rs : List (RTaskRecord k)} (hl : ts.length = rs.length) {m : ℕ}
    (ho : (ts.filter (·.noncont)).map (·.ncOrder) = List.range m) {τ : Fin k ⊕ ν → ℝ} {τR : Fin k ⊕ Fin 6 → ℝ}
    {out : List (RTaskRecord k)} (h : reducedTaskTorqueQPRec D C R Ainv Q solve ts rs = (.ret 1 τ τR, out)) :
    (∃ qs, ts.mapM (calcJKTR D C (Ainv * C.Nc)) = some qs ∧ List.Forall₂ (RHandled c) (qs.zip rs) out) ∧
      τR = (out.map (·.part)).sum ∧
      ∃ τ' z, reducedTaskTorque D C R Ainv (List.zipWith followedIn ts out) = some τ' ∧ τ = τ' + onChains z ∧
        ((∀ T ∈ ts, T.noncont = false) → z = 0) := by
  simp only [reducedTaskTorqueQPRec] at h
  rcases hm : ts.mapM (calcJKTR D C (Ainv * C.Nc)) with _ | qs
  · rw [hm] at h
    simp at h
  rw [hm] at h
  simp only at h
  have hlen : qs.length = rs.length := (length_of_mapM hm).trans hl
  have hin : ts = qs.map (·.toRTaskIn) := (map_of_mapM (fun a b e => toIn_of_calc e) hm).symm
  obtain ⟨h1, h2, y, z, h3, h4, h5, -⟩ := rec_success (s := 0) (m := m) _ _ _ _ _ _ h (by
    rw [zip_fst hlen, ← List.range_eq_range', ← ho, hin, List.filter_map, List.map_map]
    rfl) (fun _ => rfl) (by simp)
  rw [zip_fst hlen] at h3
  refine ⟨⟨qs, rfl, h1⟩, by simpa [ncR] using h2, assembleTorque D τR y, z, ?_, h4, fun a => h5 rfl ?_⟩
  · simp only [reducedTaskTorque, calc_followed_all hm]
    have e : (0 : Fin k ⊕ Fin 6 → ℝ) + ncR (none : Option (NcSum k ν)) = 0 := add_zero _
    rw [e] at h3
    have h3' : rTaskFrom D C R (Ainv * C.Nc) (Option.map Prod.snd (jktR C.ARinvNCR C.Winv (jBaseR R))) none 0 0
      (List.zipWith rfollowed qs out) = some (τR, y) := h3
    rw [h3']
  · rintro ⟨q, r⟩ hp
    have hq := (List.of_mem_zip hp).1
    exact a q.toRTaskIn (by rw [hin]; exact List.mem_map_of_mem hq)

/-- C92, reduced model (failure).  After a call that fails, either a task on the contact chains failed, and is recorded with error
flag 1, no change and no part of the torque (but with the contact part of an earlier call), the tasks below keeping their records; or
the QP for the tasks outside the contact chains failed, and every record reads as after success. -/
theorem C92_reduced_failure_partial {ts : List (RTaskIn (Fin k) ν)} {rs : List (RTaskRecord k)} (hl : ts.length = rs.length)
    {τ : Fin k ⊕ ν → ℝ} {τR : Fin k ⊕ Fin 6 → ℝ} {out : List (RTaskRecord k)}
    (h : reducedTaskTorqueQPRec D C R Ainv Q solve ts rs = (.ret 0 τ τR, out)) :
    ∃ qs, ts.mapM (calcJKTR D C (Ainv * C.Nc)) = some qs ∧
      ((∃ above T r below out', qs.zip rs = above ++ (T, r) :: below ∧ T.noncont = false ∧
        out = out' ++ ⟨⟨T.t, 0⟩, r.cqp, 1, 0⟩ :: below.map Prod.snd ∧ List.Forall₂ (RHandled c) above out') ∨
      List.Forall₂ (RHandled c) (qs.zip rs) out ∧ ∃ T ∈ ts, T.noncont = true) := by
  simp only [reducedTaskTorqueQPRec] at h
  rcases hm : ts.mapM (calcJKTR D C (Ainv * C.Nc)) with _ | qs
  · rw [hm] at h
    simp at h
  rw [hm] at h
  simp only at h
  have hin : ts = qs.map (·.toRTaskIn) := (map_of_mapM (fun a b e => toIn_of_calc e) hm).symm
  refine ⟨qs, rfl, ?_⟩
  rcases (rec_failure _ _ _ _ _ _ h (by norm_num)).2 with h1 | ⟨h1, h2⟩
  · exact .inl h1
  · refine .inr ⟨h1, ?_⟩
    rcases h2 with h2 | ⟨⟨q, r⟩, hp, e⟩
    · simp at h2
    · exact ⟨q.toRTaskIn, by rw [hin]; exact List.mem_map_of_mem (List.of_mem_zip hp).1, e⟩

/-- C92, reduced model (which task failed).  A solver that solves what can be solved: a failing call fails at its first task, which gets
error flag 1; all others keep their records. -/
theorem C92_reduced_flags_partial (hs : solve.Sound) (hcomp : solve.Complete) {ts : List (RTaskIn (Fin k) ν)}
    {rs : List (RTaskRecord k)} (hl : ts.length = rs.length) {τ : Fin k ⊕ ν → ℝ} {τR : Fin k ⊕ Fin 6 → ℝ} {out : List (RTaskRecord k)}
    (h : reducedTaskTorqueQPRec D C R Ainv Q solve ts rs = (.ret 0 τ τR, out)) :
    ∃ T ts' r rs', ts = T :: ts' ∧ rs = r :: rs' ∧ out = ⟨⟨T.t, 0⟩, r.cqp, 1, 0⟩ :: rs' := by
  simp only [reducedTaskTorqueQPRec] at h
  rcases hm : ts.mapM (calcJKTR D C (Ainv * C.Nc)) with _ | qs
  · rw [hm] at h
    simp at h
  rw [hm] at h
  simp only at h
  have hlen : qs.length = rs.length := (length_of_mapM hm).trans hl
  have hin : ts = qs.map (·.toRTaskIn) := (map_of_mapM (fun a b e => toIn_of_calc e) hm).symm
  rcases qs with _ | ⟨T, qs⟩
  · rw [List.zip_nil_left, rqpFromRec] at h
    simp [rqpFinish] at h
  rcases rs with _ | ⟨r, rs⟩
  · simp at hlen
  refine ⟨T.toRTaskIn, qs.map RTask.toRTaskIn, r, rs, hin, rfl, ?_⟩
  rw [List.zip_cons_cons] at h
  rcases hT : T.noncont with _ | _
  · rw [rec_chain _ _ _ _ _ hT] at h
    rcases hf : Q.fit with _ | lim
    · rw [hf] at h; simp at h
    rcases hc : stackC Q.cs c with _ | ⟨m', Cm⟩
    · rw [hf, hc] at h; simp at h
    rw [hf, hc] at h
    simp only at h
    rcases hx : solve 0 T.t (c - 6) (rQP D C Q lim Cm (prevNull (ν := ν) none * (T.Jkt * T.Λ)) T.f (reducedGravity D C + 0)) with _ | x
    · rw [hx] at h
      simp only [Prod.mk.injEq] at h
      rw [← h.2]
      simp only [List.length_cons, add_left_inj] at hlen
      rw [List.map_snd_zip hlen.ge]
      rfl
    · rw [hx] at h
      simp only [Prod.mk.injEq] at h
      have h1 := h.1
      rw [rec_fst] at h1
      have hok := (rQP_feasible D C Q lim Cm _ _ _ x).mp (hs _ _ _ _ _ hx)
      rw [← mulVec_mulVec, ← mulVec_mulVec, add_assoc (reducedGravity D C)] at hok
      exact absurd h1 (rqp_go hf hc hs hcomp _ _ _ _ _ _ (fun b => x (.inr b)) hok _ _)
  · simp [rqpFromRec, hT] at h

/-- C92, disagreement.  A task on the contact chains, then one outside: whenever the call succeeds, the same call with a solver that
gives up the second QP (the code allows 300 iterations) returns 0 and leaves no error flag set. -/
theorem silent_of_success {T₀ T₁ : RTaskIn (Fin k) ν} (h0 : T₀.noncont = false) (h1 : T₁.noncont = true) (ho : T₁.ncOrder = 0)
    {τ : Fin k ⊕ ν → ℝ} {τR : Fin k ⊕ Fin 6 → ℝ} (h : reducedTaskTorqueQP D C R Ainv Q solve [T₀, T₁] = .ret 1 τ τR) :
    ∃ τR' out, reducedTaskTorqueQPRec D C R Ainv Q (TwoFeetFail.giveUp solve) [T₀, T₁] [.fresh k, .fresh k] = (.ret 0 0 τR', out) ∧
      ∀ r ∈ out, r.err = 0 := by
  simp only [reducedTaskTorqueQP] at h
  simp only [reducedTaskTorqueQPRec]
  rcases hm : [T₀, T₁].mapM (calcJKTR D C (Ainv * C.Nc)) with _ | qs
  · rw [hm] at h
    simp at h
  rw [hm] at h
  simp only [List.mapM_cons, List.mapM_nil, Option.pure_def, Option.bind_eq_bind, Option.bind_eq_some_iff, Option.some.injEq] at hm
  obtain ⟨q0, e0, _, ⟨q1, e1, _, rfl, rfl⟩, rfl⟩ := hm
  have n0 : q0.noncont = false := (noncont_of_calc e0).trans h0
  have n1 : q1.noncont = true := (noncont_of_calc e1).trans h1
  have o1 : q1.ncOrder = 0 := by rw [toIn_of_calc e1]; exact ho
  simp only at h ⊢
  obtain ⟨K, hK⟩ : ∃ K, (jktR C.ARinvNCR C.Winv (jBaseR R)).map Prod.snd = K := ⟨_, rfl⟩
  rw [hK] at h ⊢
  rw [List.zip_cons_cons, List.zip_cons_cons, List.zip_nil_left, rec_chain _ _ _ _ _ n0]
  rw [rqpFrom_chain D C R _ K Q solve 0 none 0 0 none n0] at h
  rcases hf : Q.fit with _ | lim
  · rw [hf] at h; simp at h
  rcases hc : stackC Q.cs c with _ | ⟨m', Cm⟩
  · rw [hf, hc] at h; simp at h
  rw [hf, hc] at h
  simp only at h ⊢
  rcases hx : solve 0 q0.t (c - 6) (rQP D C Q lim Cm (prevNull (ν := ν) none * (q0.Jkt * q0.Λ)) q0.f (reducedGravity D C + 0)) with _ | x
  · rw [hx] at h
    simp at h
  have hx' : TwoFeetFail.giveUp solve 0 q0.t (c - 6)
      (rQP D C Q lim Cm (prevNull (ν := ν) none * (q0.Jkt * q0.Λ)) q0.f (reducedGravity D C + 0)) = some x := by
    unfold TwoFeetFail.giveUp
    rw [if_neg (by norm_num), hx]
  rw [hx] at h
  rw [hx']
  simp only at h ⊢
  rcases K with _ | Kb
  · simp [rqpFrom, n1] at h
  simp only [rqpFrom, n1, if_true] at h
  simp only [rqpFromRec, n1, if_true]
  rcases hy : ncTorque D R (Ainv * C.Nc) Kb q0 (nullR C q0 (prevNull (ν := ν) none)) q1 with _ | y
  · rw [hy] at h
    simp at h
  simp only [o1, if_true, rqpFinish, hf, hc]
  refine ⟨_, _, rfl, ?_⟩
  simp [RTaskRecord.fresh, RTaskRecord.solved]

end Call

/-- C92, disagreement.  The robot of C40 stands on one foot and is asked to accelerate a leg joint and an arm joint.  A solver gives only
exact answers but gives up the QP for the arm.  Task control with the reduced model returns 0, and neither task has its error flag set. -/
theorem C92_reduced_flag_missing {solve : Solver} (hs : solve.Exact) (ha : solve.Complete) :
    (TwoFeetFail.giveUp solve).Exact ∧
    ∃ D C τR out, reduce vcOf ncOf (exRed 6)⁻¹ 1 FreeQP.G = some D ∧ reducedContact D (exFoot 6) (exRed 6)⁻¹ = some C ∧
      reducedTaskTorqueQPRec D C 1 (exRed 6)⁻¹ FreeQP.robot (TwoFeetFail.giveUp solve)
        [exRow (legRow 5) 0 true 0, exRow (armRow 1) 60 false 0] [.fresh 6, .fresh 6] = (.ret 0 0 τR, out) ∧
      ∀ r ∈ out, r.err = 0 := by
  obtain ⟨D, C, τ, τR, hD, hC, h, -⟩ := C58_free_task_unchecked hs ha
  obtain ⟨τR', out, h', e⟩ := silent_of_success (by rfl) (by rfl) (by rfl) h
  exact ⟨TwoFeetFail.giveUp_exact hs, D, C, τR', out, hD, hC, h', e⟩

/-- The hypotheses of `C92_reduced_success_partial` are met by that robot. -/
example : ∃ (D : Reduced (Fin 6) (Fin 6)) (C : ReducedContact 6 (Fin 6) (Fin 6)) (τ : Fin 6 ⊕ Fin 6 → ℝ) (τR : Fin 6 ⊕ Fin 6 → ℝ)
    (out : List (RTaskRecord 6)),
    reducedTaskTorqueQPRec D C 1 (exRed 6)⁻¹ FreeQP.robot Stand.solver
      [exRow (legRow 5) 0 true 0, exRow (armRow 1) 60 false 0] [.fresh 6, .fresh 6] = (.ret 1 τ τR, out) ∧
    (([exRow (legRow 5) 0 true 0, exRow (armRow 1) 60 false 0] : List (RTaskIn (Fin 6) (Fin 6))).filter (·.noncont)).map (·.ncOrder)
      = List.range 1 := by
  obtain ⟨D, C, τ, τR, hD, hC, h, -⟩ := C58_free_task_unchecked Stand.solver_exact Stand.solver_complete
  rw [← C92_reduced_result (rs := [.fresh 6, .fresh 6]) rfl] at h
  exact ⟨D, C, τ, τR, _, Prod.ext h rfl, rfl⟩

end Verif.Props
