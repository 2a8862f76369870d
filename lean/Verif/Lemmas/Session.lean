import Verif.Model.Session

/-!
# Lemmas about the order of control calls
-/

set_option linter.unusedSectionVars false

namespace Verif
open Matrix Verif.Model

/-- What is fixed when a contact is registered. -/
def Model.ContactLink.registered (l : ContactLink) : ContactLink := { l with contact := false, rotm := 0 }

variable {X : Type*} {n : ℕ} {E : ControlEnv X n}

/-- Two sessions with the same registered contacts and tasks and the same torque limit. -/
structure Model.Session.SameSetup (s t : Session X n) : Prop where
  cc : s.cc.map ContactLink.registered = t.cc.map ContactLink.registered
  ts : s.ts.map SessionTask.t = t.ts.map SessionTask.t
  limit : s.limit = t.limit

theorem Model.Session.SameSetup.refl (s : Session X n) : s.SameSetup s := ⟨rfl, rfl, rfl⟩
theorem Model.Session.SameSetup.symm {s t : Session X n} (h : s.SameSetup t) : t.SameSetup s :=
  ⟨h.cc.symm, h.ts.symm, h.limit.symm⟩
theorem Model.Session.SameSetup.trans {s t u : Session X n} (h : s.SameSetup t) (h' : t.SameSetup u) : s.SameSetup u :=
  ⟨h.cc.trans h'.cc, h.ts.trans h'.ts, h.limit.trans h'.limit⟩

theorem run_append (s : Session X n) (a b : List (ControlCall X)) :
    s.run E (a ++ b) = (s.run E a).bind fun s' => s'.run E b := by
  induction a generalizing s with
  | nil => rfl
  | cons o os ih =>
    simp only [List.cons_append, Session.run]
    rcases s.step E o with _ | s'
    · rfl
    · exact ih s'

theorem setFlags_registered (cc : List ContactLink) (v : List Bool) :
    (Session.setFlags cc v).map ContactLink.registered = cc.map ContactLink.registered := by
  induction cc generalizing v with
  | nil => rfl
  | cons l ls ih => cases v <;> simp [Session.setFlags, ih, ContactLink.registered]

theorem setFlags_length (cc : List ContactLink) (v : List Bool) : (Session.setFlags cc v).length = cc.length := by
  induction cc generalizing v with
  | nil => rfl
  | cons l ls ih => cases v <;> simp [Session.setFlags, ih]

/-- The poses of the contacts. -/
def posed (g : ℕ → Mat3) (cc : List ContactLink) : List ContactLink := cc.mapIdx fun i l => { l with rotm := g i }

theorem posed_registered (g : ℕ → Mat3) (cc : List ContactLink) :
    (posed g cc).map ContactLink.registered = cc.map ContactLink.registered := by
  apply List.ext_getElem
  · simp [posed]
  · intro i h1 h2
    simp [posed, ContactLink.registered]

theorem posed_setFlags (g : ℕ → Mat3) {cc cc' : List ContactLink} (v : List Bool)
    (h : cc.map ContactLink.registered = cc'.map ContactLink.registered) :
    posed g (Session.setFlags cc v) = posed g (Session.setFlags cc' v) := by
  induction cc generalizing cc' v g with
  | nil =>
    cases cc' with
    | nil => rfl
    | cons => simp at h
  | cons l ls ih =>
    cases cc' with
    | nil => simp at h
    | cons l' ls' =>
      simp only [List.map_cons, List.cons.injEq] at h
      have hl : ∀ b R, ({ l with contact := b, rotm := R } : ContactLink) = { l' with contact := b, rotm := R } := by
        intro b R
        have := h.1
        simp only [ContactLink.registered, ContactLink.mk.injEq] at this
        simp [this]
      cases v with
      | nil =>
        simp only [Session.setFlags, posed, List.mapIdx_cons]
        exact congrArg₂ _ (hl _ _) (ih (fun i => g (i + 1)) [] h.2)
      | cons b v =>
        simp only [Session.setFlags, posed, List.mapIdx_cons]
        exact congrArg₂ _ (hl _ _) (ih (fun i => g (i + 1)) v h.2)

theorem all_registered {cc cc' : List ContactLink} (h : cc.map ContactLink.registered = cc'.map ContactLink.registered) :
    cc.all (fun l => l.type == .c6d) = cc'.all (fun l => l.type == .c6d) := by
  have e : ∀ cc : List ContactLink, cc.all (fun l => l.type == .c6d) =
      (cc.map ContactLink.registered).all (fun l => l.type == .c6d) := by
    intro cc
    rw [List.all_map]
    rfl
  rw [e, h, ← e]

/-- The state after `UpdateKinematics` and `SetContact`. -/
theorem run_prep (s : Session X n) (x : X) {v : List Bool} (hv : v.length ≤ s.cc.length) (os : List (ControlCall X)) :
    s.run E (.update x :: .setContact v :: os) =
      if s.cc.all (fun l => l.type == .c6d) then
        Session.run E { s with
          x := x, Ainv := (E.mass x)⁻¹, G := E.gravity x, com := E.com x, yaw := E.yaw x,
          cc := posed (E.contactRot · x) (Session.setFlags s.cc v),
          pos := (posed (E.contactRot · x) (Session.setFlags s.cc v)).mapIdx fun i _ => E.contactPos i x,
          contactDof := some (6 * v.count true),
          J := ⟨_, Session.stackJac E x (Session.activeIdx (posed (E.contactRot · x) (Session.setFlags s.cc v)))⟩ } os
      else none := by
  have ha : (Session.setFlags s.cc v).all (fun l => l.type == .c6d) = s.cc.all (fun l => l.type == .c6d) :=
    all_registered (setFlags_registered _ _)
  simp only [Session.run, Session.step, Session.update, Session.setContact, Nat.not_lt.mpr hv, if_false, Session.updateContacts, ha]
  rcases s.cc.all (fun l => l.type == .c6d) with _ | _ <;> rfl

/-- Commands for all tasks. -/
def commanded (ts : List SessionTask) (fs : List (ℕ → ℝ)) : List SessionTask :=
  List.zipWith (fun T f => { T with f := fun j => f j }) ts fs

theorem modify_append_cons {α : Type*} (pre post : List α) (a : α) (g : α → α) :
    (pre ++ a :: post).modify pre.length g = pre ++ g a :: post := by
  induction pre with
  | nil => simp
  | cons b pre ih => simp [ih]

theorem run_setTasks (s : Session X n) (pre post : List SessionTask) (fs : List (ℕ → ℝ)) (hs : s.ts = pre ++ post)
    (hl : fs.length = post.length) :
    s.run E (fs.mapIdx fun i f => .setTask (i + pre.length) f) = some { s with ts := pre ++ commanded post fs } := by
  induction fs generalizing s pre post with
  | nil =>
    have : post = [] := List.length_eq_zero_iff.mp hl.symm
    subst this
    simp [Session.run, commanded, ← hs]
  | cons f fs ih =>
    cases post with
    | nil => simp at hl
    | cons T post =>
      have hlt : 0 + pre.length < s.ts.length := by simp [hs]
      have e : s.ts.modify (0 + pre.length) (fun T => { T with f := fun j => f j }) =
          (pre ++ [{ T with f := fun j => f j }]) ++ post := by
        rw [hs, Nat.zero_add, List.append_assoc, List.singleton_append]
        exact modify_append_cons _ _ _ _
      simp only [List.mapIdx_cons, Session.run, Session.step, Session.setTask, hlt, if_true]
      have := ih { s with ts := s.ts.modify (0 + pre.length) (fun T => { T with f := fun j => f j }) }
        (pre ++ [{ T with f := fun j => f j }]) post e (by simpa using hl)
      simp only [List.length_append, List.length_singleton] at this
      simp only [Nat.add_assoc, Nat.add_comm 1] at this ⊢
      rw [this]
      simp [commanded]

theorem commanded_congr {ts ts' : List SessionTask} (h : ts.map SessionTask.t = ts'.map SessionTask.t) (fs : List (ℕ → ℝ)) :
    commanded ts fs = commanded ts' fs := by
  induction ts generalizing ts' fs with
  | nil =>
    cases ts' with
    | nil => rfl
    | cons => simp at h
  | cons T ts ih =>
    cases ts' with
    | nil => simp at h
    | cons T' ts' =>
      simp only [List.map_cons, List.cons.injEq] at h
      cases fs with
      | nil => rfl
      | cons f fs =>
        simp only [commanded, List.zipWith_cons_cons]
        refine congrArg₂ _ ?_ (ih h.2 fs)
        obtain ⟨t, g⟩ := T
        obtain ⟨t', g'⟩ := T'
        simp only at h
        obtain ⟨rfl, -⟩ := h
        rfl

theorem taskTorque_ret (s : Session X n) (a b : ℕ) (h : Bool) :
    Session.taskTorque E { s with taskRet := a, contactRet := b } h =
      (s.taskTorque E h).map fun s' => { s' with contactRet := b } := by
  simp only [Session.taskTorque, Session.taskInputs, Session.qpRobot]
  split
  · rfl
  · split
    · rfl
    · split
      · split
        · split <;> rfl
        · split <;> simp_all
      · rfl

theorem redistribute_ret (s : Session X n) (b : ℕ) (h : Bool) :
    Session.redistribute E { s with contactRet := b } h = s.redistribute E h := by
  simp only [Session.redistribute, Session.qpRobot, Session.closedForm]

/-- The members `CalcContactConstraint` writes. -/
noncomputable def membersOf (E : ControlEnv X n) (d : Option ℕ) (J : (c : ℕ) × Matrix (Fin c) (Fin 6 ⊕ Fin n) ℝ)
    (Ainv : Matrix (Fin 6 ⊕ Fin n) (Fin 6 ⊕ Fin n) ℝ) : Option (ContactMembers n) :=
  match d with
  | none => none
  | some d =>
    if d < 6 then none
    else match calculateContactConstraint J.2 Ainv E.cod with
      | .ret _ S (some ⟨_, _, N⟩) => some ⟨J.1, S, N, none⟩
      | .ret _ S none => some ⟨J.1, S, 0, none⟩
      | _ => none

theorem calcContact_eq (s : Session X n) :
    s.calcContact E = (membersOf E s.contactDof s.J s.Ainv).map fun m => { s with space := some m } := by
  simp only [Session.calcContact, membersOf]
  rcases s.contactDof with _ | d
  · rfl
  · simp only
    split
    · rfl
    · rcases calculateContactConstraint s.J.2 s.Ainv E.cod with _ | _ | ⟨_, S, _ | ⟨_, _, N⟩⟩ <;> rfl

/-- The contacts after `SetContact`. -/
def contactsAt (E : ControlEnv X n) (cc : List ContactLink) (x : X) (v : List Bool) : List ContactLink :=
  posed (E.contactRot · x) (Session.setFlags cc v)

/-- The contact Jacobian after `SetContact`. -/
def jacAt (E : ControlEnv X n) (cc : List ContactLink) (x : X) (v : List Bool) : (c : ℕ) × Matrix (Fin c) (Fin 6 ⊕ Fin n) ℝ :=
  ⟨_, Session.stackJac E x (Session.activeIdx (contactsAt E cc x v))⟩

/-- The state before the task torque is computed. -/
noncomputable def readyAt (E : ControlEnv X n) (cc : List ContactLink) (ts : List SessionTask) (limit : Option (Fin n → ℝ)) (x : X)
    (v : List Bool) (fs : List (ℕ → ℝ)) (m : ContactMembers n) (a b : ℕ) : Session X n :=
  { x := x, Ainv := (E.mass x)⁻¹, G := E.gravity x, com := E.com x, yaw := E.yaw x, cc := contactsAt E cc x v,
    pos := (contactsAt E cc x v).mapIdx fun i _ => E.contactPos i x, contactDof := some (6 * v.count true), J := jacAt E cc x v,
    space := some { m with P := some (gravityForce m.S (E.gravity x)) },
    τg := gravityTorque m.S (E.mass x)⁻¹ (E.gravity x), τt := 0, τc := 0, ts := commanded ts fs, limit := limit, taskRet := a,
    contactRet := b }

theorem run_cycle (s : Session X n) (x : X) {v : List Bool} {fs : List (ℕ → ℝ)} (hqp : Bool) (hv : v.length ≤ s.cc.length)
    (hf : fs.length = s.ts.length) :
    s.run E (controlCycle x v fs hqp) =
      if s.cc.all (fun l => l.type == .c6d) then
        (membersOf E (some (6 * v.count true)) (jacAt E s.cc x v) (E.mass x)⁻¹).bind fun m =>
          (readyAt E s.cc s.ts s.limit x v fs m s.taskRet s.contactRet).run E [.taskTorque hqp, .redistribute hqp]
      else none := by
  rw [controlCycle, List.append_assoc, List.cons_append, List.cons_append, run_prep s x hv]
  split
  · simp only [List.cons_append, List.nil_append]
    rw [Session.run, Session.step, calcContact_eq]
    simp only [jacAt, contactsAt]
    rcases membersOf E _ _ _ with _ | m
    · rfl
    · simp only [Option.map_some, Option.bind_some]
      rw [run_append]
      have := run_setTasks (E := E) { s with
          x := x, Ainv := (E.mass x)⁻¹, G := E.gravity x, com := E.com x, yaw := E.yaw x,
          cc := posed (E.contactRot · x) (Session.setFlags s.cc v),
          pos := (posed (E.contactRot · x) (Session.setFlags s.cc v)).mapIdx fun i _ => E.contactPos i x,
          contactDof := some (6 * v.count true),
          J := ⟨_, Session.stackJac E x (Session.activeIdx (posed (E.contactRot · x) (Session.setFlags s.cc v)))⟩,
          space := some m } [] s.ts fs rfl hf
      simp only [List.length_nil, Nat.add_zero, List.nil_append] at this
      rw [this]
      rfl
  · rfl

theorem run_cycle_congr {s t : Session X n} (h : s.SameSetup t) (x : X) {v : List Bool} {fs : List (ℕ → ℝ)} (hqp : Bool)
    (hv : v.length ≤ s.cc.length) (hf : fs.length = s.ts.length) :
    s.run E (controlCycle x v fs hqp) = t.run E (controlCycle x v fs hqp) := by
  have hc : s.cc.length = t.cc.length := by simpa using congrArg List.length h.cc
  have ht : s.ts.length = t.ts.length := by simpa using congrArg List.length h.ts
  rw [run_cycle s x hqp hv hf, run_cycle t x hqp (hc ▸ hv) (ht ▸ hf), all_registered h.cc]
  have e1 : contactsAt E s.cc x v = contactsAt E t.cc x v := posed_setFlags _ v h.cc
  have e2 : jacAt E s.cc x v = jacAt E t.cc x v :=
    congrArg (fun cc => (⟨_, Session.stackJac E x (Session.activeIdx cc)⟩ : (c : ℕ) × Matrix (Fin c) (Fin 6 ⊕ Fin n) ℝ)) e1
  rw [e2]
  congr 1
  rcases membersOf E _ _ _ with _ | m
  · rfl
  · simp only [Option.bind_some]
    have e3 : readyAt E s.cc s.ts s.limit x v fs m s.taskRet s.contactRet =
        { readyAt E t.cc t.ts t.limit x v fs m t.taskRet t.contactRet with taskRet := s.taskRet, contactRet := s.contactRet } := by
      simp only [readyAt, e1, e2, h.limit, commanded_congr h.ts]
    rw [e3]
    simp only [Session.run, Session.step, taskTorque_ret]
    rcases (readyAt E t.cc t.ts t.limit x v fs m t.taskRet t.contactRet).taskTorque E hqp with _ | u
    · rfl
    · simp only [Option.map_some, redistribute_ret]

theorem step_setup {s s' : Session X n} {o : ControlCall X} (h : s.step E o = some s') : s.SameSetup s' := by
  have hu : ∀ s s' : Session X n, s.updateContacts E = some s' → s.SameSetup s' := by
    intro s s' h
    simp only [Session.updateContacts] at h
    split at h
    · cases h
    · split at h
      · cases h
        exact ⟨(posed_registered _ _).symm, rfl, rfl⟩
      · cases h
  cases o with
  | update x => cases h; exact ⟨rfl, rfl, rfl⟩
  | setContact v =>
    simp only [Session.step, Session.setContact] at h
    split at h
    · exact hu _ _ h
    · have := hu _ _ h
      exact ⟨(setFlags_registered _ _).symm.trans this.cc, this.ts, this.limit⟩
  | updateContacts => exact hu _ _ h
  | calcContact =>
    rw [Session.step, calcContact_eq] at h
    obtain ⟨m, -, rfl⟩ := Option.map_eq_some_iff.mp h
    exact ⟨rfl, rfl, rfl⟩
  | grav =>
    simp only [Session.step, Session.grav] at h
    split at h <;> cases h
    exact ⟨rfl, rfl, rfl⟩
  | gravInto =>
    simp only [Session.step, Session.gravInto] at h
    split at h <;> cases h
    exact ⟨rfl, rfl, rfl⟩
  | setTask i f =>
    simp only [Session.step, Session.setTask] at h
    split at h <;> cases h
    refine ⟨rfl, ?_, rfl⟩
    apply List.ext_getElem
    · simp
    · intro j h1 h2
      simp only [List.getElem_map, List.getElem_modify]
      split <;> rfl
  | taskTorque b =>
    simp only [Session.step, Session.taskTorque] at h
    repeat' split at h
    all_goals first | cases h | skip
    all_goals exact ⟨rfl, rfl, rfl⟩
  | redistribute b =>
    simp only [Session.step, Session.redistribute] at h
    repeat' split at h
    all_goals first | cases h | skip
    all_goals exact ⟨rfl, rfl, rfl⟩

theorem run_setup {s s' : Session X n} {os : List (ControlCall X)} (h : s.run E os = some s') : s.SameSetup s' := by
  induction os generalizing s with
  | nil => cases h; exact .refl _
  | cons o os ih =>
    simp only [Session.run] at h
    split at h
    · cases h
    · rename_i s1 hs
      exact (step_setup hs).trans (ih h)

end Verif
