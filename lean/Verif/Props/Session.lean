import Verif.Lemmas.Session
import Verif.Props.QPControl

/-!
# C74: a control cycle uses nothing from earlier calls; calls left out
-/

set_option linter.unusedSectionVars false

namespace Verif.Props
open Matrix Verif Verif.Model Verif.Spec

variable {X : Type*} {n : ℕ} {E : ControlEnv X n} {x0 : X} {cc : List ContactLink} {ts : List ℕ} {limit : Option (Fin n → ℝ)}

/-- C74.  After any history of calls that is defined, a control cycle gives exactly what it gives on a robot just loaded: the same
torques, return values and stored matrices (and it is undefined in the same cases).  `v` gives the contacts, `fs` one command per
task. -/
theorem C74_history_independent {hist : List (ControlCall X)} {s : Session X n}
    (hh : (Session.loaded x0 cc ts limit).run E hist = some s) (x : X) {v : List Bool} {fs : List (ℕ → ℝ)} (hqp : Bool)
    (hv : v.length ≤ cc.length) (hf : fs.length = ts.length) :
    (Session.loaded x0 cc ts limit).run E (hist ++ controlCycle x v fs hqp) =
      (Session.loaded x0 cc ts limit).run E (controlCycle x v fs hqp) := by
  rw [run_append, hh, Option.bind_some]
  have h := run_setup hh
  refine (run_cycle_congr h x hqp ?_ ?_).symm
  · simpa [Session.loaded] using hv
  · simpa [Session.loaded] using hf

/-- The numbers of the contacts switched on. -/
def switchedOn (v : List Bool) : List ℕ := (List.range v.length).filter fun i => v[i]? == some true

theorem switchedOn_length (v : List Bool) : (switchedOn v).length = v.count true := by
  induction v using List.reverseRecOn with
  | nil => rfl
  | append_singleton v b ih =>
    have e : switchedOn (v ++ [b]) = switchedOn v ++ if b then [v.length] else [] := by
      simp only [switchedOn, List.length_append, List.length_singleton, List.range_succ, List.filter_append]
      congr 1
      · apply List.filter_congr
        intro i hi
        rw [List.getElem?_append_left (List.mem_range.mp hi)]
      · cases b <;> simp
    rw [e, List.length_append, ih, List.count_append]
    cases b <;> simp

/-- The contacts of a robot in configuration `x` with the contacts `v` switched on: everything as registered (size of the foot,
friction), orientation as in `x`. -/
def contactsNow (E : ControlEnv X n) (cc : List ContactLink) (x : X) (v : List Bool) : List ContactLink :=
  cc.mapIdx fun i l => { l with contact := v[i]?.getD false, rotm := E.contactRot i x }

theorem setFlags_eq (cc : List ContactLink) (v : List Bool) :
    Session.setFlags cc v = cc.mapIdx fun i l => { l with contact := v[i]?.getD false } := by
  induction cc generalizing v with
  | nil => simp [Session.setFlags]
  | cons l ls ih => cases v <;> simp [Session.setFlags, ih]

theorem contactsAt_eq (x : X) (v : List Bool) : contactsAt E cc x v = contactsNow E cc x v := by
  apply List.ext_getElem?
  intro i
  simp only [contactsAt, posed, setFlags_eq, contactsNow, List.getElem?_mapIdx, Option.map_map]
  rfl

theorem contactsNow_contact (x : X) (v : List Bool) (i : ℕ) :
    ((contactsNow E cc x v)[i]?).map ContactLink.contact = (cc[i]?).map fun _ => v[i]?.getD false := by
  simp only [contactsNow, List.getElem?_mapIdx, Option.map_map]
  rfl

theorem contactsNow_length (x : X) (v : List Bool) : (contactsNow E cc x v).length = cc.length := by
  simp [contactsNow]

theorem activeIdx_eq (cs : List ContactLink) :
    Session.activeIdx cs = (List.range cs.length).filter fun i => (cs[i]?.map ContactLink.contact).getD false := by
  apply List.filter_congr
  intro i _
  rcases cs[i]? with _ | l <;> rfl

theorem activeIdx_contactsNow (x : X) {v : List Bool} (hv : v.length ≤ cc.length) :
    Session.activeIdx (contactsNow E cc x v) = switchedOn v := by
  obtain ⟨k, hk⟩ := Nat.exists_eq_add_of_le hv
  simp only [activeIdx_eq, switchedOn, contactsNow_length, contactsNow_contact]
  rw [hk, List.range_add, List.filter_append]
  have h1 : List.filter (fun i => (Option.map (fun _ => v[i]?.getD false) cc[i]?).getD false) (List.range v.length) =
      List.filter (fun i => v[i]? == some true) (List.range v.length) := by
    apply List.filter_congr
    intro i hi
    have hi := List.mem_range.mp hi
    rw [List.getElem?_eq_getElem (l := cc) (by omega), List.getElem?_eq_getElem hi]
    cases v[i] <;> rfl
  have h2 : List.filter (fun i => (Option.map (fun _ => v[i]?.getD false) cc[i]?).getD false)
      (List.map (fun x => v.length + x) (List.range k)) = [] := by
    rw [List.filter_eq_nil_iff]
    intro i hi
    obtain ⟨j, -, rfl⟩ := List.mem_map.mp hi
    rw [List.getElem?_eq_none (l := v) (by omega)]
    cases cc[v.length + j]? <;> simp
  rw [h1, h2, List.append_nil]

theorem active_length_idx (cs : List ContactLink) : (active cs).length = (Session.activeIdx cs).length := by
  induction cs using List.reverseRecOn with
  | nil => rfl
  | append_singleton cs l ih =>
    have e : Session.activeIdx (cs ++ [l]) = Session.activeIdx cs ++ if l.contact then [cs.length] else [] := by
      simp only [Session.activeIdx, List.length_append, List.length_singleton, List.range_succ, List.filter_append]
      congr 1
      · apply List.filter_congr
        intro i hi
        rw [List.getElem?_append_left (List.mem_range.mp hi)]
      · cases h : l.contact <;> simp [h]
    rw [e, List.length_append, ← ih, active, List.filter_append, List.length_append]
    cases h : l.contact <;> simp [active, h]

theorem active_contactsNow (x : X) {v : List Bool} (hv : v.length ≤ cc.length) :
    6 * (active (contactsNow E cc x v)).length = 6 * (switchedOn v).length := by
  rw [active_length_idx, activeIdx_contactsNow x hv]

theorem membersOf_some {d : Option ℕ} {J : (c : ℕ) × Matrix (Fin c) (Fin 6 ⊕ Fin n) ℝ}
    {Ainv : Matrix (Fin 6 ⊕ Fin n) (Fin 6 ⊕ Fin n) ℝ} {m : ContactMembers n} (h : membersOf E d J Ainv = some m) :
    ∃ S N, m = ⟨J.1, S, N, none⟩ ∧ contactSpace J.2 Ainv = some S := by
  simp only [membersOf, calculateContactConstraint] at h
  rcases hS : contactSpace J.2 Ainv with _ | S
  · rw [hS] at h
    rcases d with _ | d
    · cases h
    · simp at h
  · rw [hS] at h
    repeat' split at h
    all_goals first | cases h | skip
    all_goals rename_i e
    all_goals
      simp only at e
      repeat' split at e
      all_goals first | cases e | skip
      all_goals exact ⟨_, _, rfl, rfl⟩

theorem taskTorque_some {s s' : Session X n} {b : Bool} (h : s.taskTorque E b = some s') :
    ∃ τt τc r, s' = { s with τt := τt, τc := τc, taskRet := r } := by
  simp only [Session.taskTorque] at h
  repeat' split at h
  all_goals first | cases h | skip
  all_goals exact ⟨_, _, _, rfl⟩

/-- C74.  Whatever was called before: if a control cycle with quadratic programmes for a configuration `x` with at least two contacts
is defined and its redistribution reports success, then the torque sent respects the limits, the robot in configuration `x` on
exactly the contacts switched on moves under it, none of these contacts tips or slips, and the force reported is the contact force. -/
theorem C74_cycle_safe {hist : List (ControlCall X)} {s : Session X n} {x : X} {v : List Bool} {fs : List (ℕ → ℝ)}
    (hh : (Session.loaded x0 cc ts limit).run E (hist ++ controlCycle x v fs true) = some s) (hr : s.contactRet = 1)
    (hv : v.length ≤ cc.length) (hf : fs.length = ts.length) (h2 : 2 ≤ v.count true)
    (hA : IsSPD (E.mass x)) (hp : ∀ l ∈ cc, 0 < l.planeX ∧ 0 < l.planeY) (hs : E.rsolve.Sound) :
    (∀ L, limit = some L → WithinLimit L s.command) ∧
    (∃ qdd F, Motion (E.mass x) (Session.stackJac E x (switchedOn v)) (E.gravity x) s.command qdd F) ∧
    ∀ qdd F, Motion (E.mass x) (Session.stackJac E x (switchedOn v)) (E.gravity x) s.command qdd F →
      ContactsHold (contactsNow E cc x v) (F ∘ Fin.cast (active_contactsNow x hv)) ∧
      s.reportedForce s.command = some ⟨_, F⟩ := by
  have h1 : (Session.loaded x0 cc ts limit).run E (controlCycle x v fs true) = some s := by
    rw [← hh]
    rcases h0 : (Session.loaded x0 cc ts limit).run E hist with _ | s0
    · rw [run_append, h0] at hh
      cases hh
    · exact (C74_history_independent h0 x true hv hf).symm
  rw [run_cycle _ x true (by simpa [Session.loaded] using hv) (by simpa [Session.loaded] using hf)] at h1
  split at h1
  swap
  · cases h1
  rename_i h6
  have hJ : jacAt E (Session.loaded (n := n) x0 cc ts limit).cc x v = ⟨_, Session.stackJac E x (switchedOn v)⟩ := by
    rw [← activeIdx_contactsNow (E := E) x hv, ← contactsAt_eq]
    rfl
  simp only [readyAt, hJ] at h1
  obtain ⟨m, hm, h1⟩ := Option.bind_eq_some_iff.mp h1
  obtain ⟨S, N, rfl, hS⟩ := membersOf_some hm
  clear hm
  simp only [Session.run, Session.step] at h1
  split at h1
  · cases h1
  rename_i s1 ht
  split at h1
  · cases h1
  rename_i s2 hd
  cases h1
  obtain ⟨τt, τc, r, rfl⟩ := taskTorque_some ht
  clear ht
  simp only [Session.loaded] at h6
  have hact : 6 * (active (contactsNow E cc x v)).length > 6 := by
    rw [active_contactsNow x hv, switchedOn_length]
    omega
  simp only [Session.redistribute, Session.loaded, contactsAt_eq, if_true, hact] at hd
  split at hd
  · cases hd
  split at hd
  · cases hd
  · rename_i ret τc' he
    cases hd
    simp only at hr
    subst hr
    have hc := (active_contactsNow (E := E) x hv).symm
    have h6' : ∀ l ∈ contactsNow E cc x v, l.type = .c6d := by
      intro l hl
      obtain ⟨i, hi, rfl⟩ := List.mem_mapIdx.mp hl
      simpa using List.all_eq_true.mp h6 _ (List.getElem_mem hi)
    have hp' : ∀ l ∈ contactsNow E cc x v, 0 < l.planeX ∧ 0 < l.planeY := by
      intro l hl
      obtain ⟨i, hi, rfl⟩ := List.mem_mapIdx.mp hl
      exact hp cc[i] (List.getElem_mem hi)
    obtain ⟨hL, hM⟩ := C10_safe hA _ hS rfl h6' hp' hc (by rw [← hc] at hact; exact hact) hs he
    obtain ⟨⟨qdd, hq⟩, hu, -⟩ := C01_contact_force_exact hA hS (E.gravity x)
      (gravityTorque S (E.mass x)⁻¹ (E.gravity x) + τt + τc')
    refine ⟨hL, ⟨_, _, hq⟩, fun qdd F h => ⟨hM qdd F h, ?_⟩⟩
    rw [hu _ _ h]
    rfl

/-- C74.  Gravity compensation alone: whatever was called before, after state, contacts, contact dynamics and gravity compensation the
command consists of the gravity torque only.  No joint of the robot in configuration `x` on exactly the contacts switched on accelerates
under it, nothing moves when the contacts determine the base, and the force reported is the contact force. -/
theorem C74_gravity_cycle {hist : List (ControlCall X)} {s : Session X n} {x : X} {v : List Bool}
    (hh : (Session.loaded x0 cc ts limit).run E (hist ++ [.update x, .setContact v, .calcContact, .grav]) = some s)
    (hv : v.length ≤ cc.length) (hA : IsSPD (E.mass x)) :
    (∃ qdd F, Motion (E.mass x) (Session.stackJac E x (switchedOn v)) (E.gravity x) s.command qdd F) ∧
    ∀ qdd F, Motion (E.mass x) (Session.stackJac E x (switchedOn v)) (E.gravity x) s.command qdd F →
      (∀ i : Fin n, qdd (.inr i) = 0) ∧ (BaseDetermined (Session.stackJac E x (switchedOn v)) → qdd = 0) ∧
      s.reportedForce s.command = some ⟨_, F⟩ := by
  rw [run_append] at hh
  obtain ⟨s0, h0, h1⟩ := Option.bind_eq_some_iff.mp hh
  have hset := run_setup h0
  have hl : s0.cc.length = cc.length := by simpa [Session.loaded] using (congrArg List.length hset.cc).symm
  rw [run_prep s0 x (hl ▸ hv)] at h1
  split at h1
  swap
  · cases h1
  have hcc : posed (E.contactRot · x) (Session.setFlags s0.cc v) = contactsNow E cc x v :=
    (posed_setFlags _ v hset.cc).symm.trans (contactsAt_eq x v)
  have hJ : (⟨_, Session.stackJac E x (Session.activeIdx (posed (E.contactRot · x) (Session.setFlags s0.cc v)))⟩ :
      (c : ℕ) × Matrix (Fin c) (Fin 6 ⊕ Fin n) ℝ) = ⟨_, Session.stackJac E x (switchedOn v)⟩ := by
    rw [hcc, activeIdx_contactsNow (E := E) x hv]
  simp only [Session.run, Session.step, calcContact_eq, hJ] at h1
  rcases hm : membersOf E (some (6 * v.count true)) ⟨_, Session.stackJac E x (switchedOn v)⟩ (E.mass x)⁻¹ with _ | m
  · simp [hm] at h1
  obtain ⟨S, N, rfl, hS⟩ := membersOf_some hm
  rw [hm] at h1
  simp only [Option.map_some, Session.grav] at h1
  cases h1
  simp only [Session.command, add_zero, Session.reportedForce, Option.map_some]
  obtain ⟨⟨qdd, hq⟩, hu, -⟩ := C01_contact_force_exact hA hS (E.gravity x) (gravityTorque S (E.mass x)⁻¹ (E.gravity x))
  refine ⟨⟨_, _, hq⟩, fun qdd F h => ?_⟩
  have h3 := C03_gravity_compensation hA hS (E.gravity x) h
  exact ⟨h3.1, h3.2, by rw [hu _ _ h]⟩

/-- C74 (negation).  A robot without contacts cannot be controlled: after any calls, switching all contacts off makes the contact
calculation undefined, and with it every control cycle. -/
theorem C74_no_contact_undefined (hist : List (ControlCall X)) (x : X) {v : List Bool} (fs : List (ℕ → ℝ)) (hqp : Bool)
    (hv : v.length ≤ cc.length) (h0 : v.count true = 0) :
    (Session.loaded x0 cc ts limit).run E (hist ++ [.setContact v, .calcContact]) = none ∧
    (Session.loaded x0 cc ts limit).run E (hist ++ controlCycle x v fs hqp) = none := by
  have key : ∀ s : Session X n, s.cc.length = cc.length → ∀ os, s.run E (.setContact v :: .calcContact :: os) = none := by
    intro s hs os
    simp only [Session.run, Session.step, Session.setContact, hs, Nat.not_lt.mpr hv, if_false, Session.updateContacts]
    split
    · rfl
    · rename_i s' h
      split at h
      · cases h
        simp [Session.calcContact, h0]
      · cases h
  constructor
  all_goals
    rw [run_append]
    rcases hh : (Session.loaded x0 cc ts limit).run E hist with _ | s
    · rfl
    have hl : s.cc.length = cc.length := by
      simpa [Session.loaded] using (congrArg List.length (run_setup hh).cc).symm
    simp only [Option.bind_some]
  · exact key s hl _
  · rw [controlCycle, List.append_assoc, List.cons_append, List.cons_append, List.cons_append, Session.run]
    exact key (s.update E x) hl _

/-- C74 (negation).  The contact force may not be asked for between the contact calculation and the gravity compensation. -/
theorem C74_force_needs_gravity {hist : List (ControlCall X)} {s : Session X n}
    (h : (Session.loaded x0 cc ts limit).run E (hist ++ [.calcContact]) = some s) (τ : Fin n → ℝ) : s.reportedForce τ = none := by
  rw [run_append] at h
  obtain ⟨s0, -, h⟩ := Option.bind_eq_some_iff.mp h
  simp only [Session.run, Session.step, calcContact_eq] at h
  split at h
  · cases h
  · rename_i s1 h1
    cases h
    obtain ⟨m, hm, rfl⟩ := Option.map_eq_some_iff.mp h1
    obtain ⟨S, N, rfl, -⟩ := membersOf_some hm
    rfl

/-- A call of the contact calculation. -/
def IsCalcContact : ControlCall X → Prop
  | .calcContact => True
  | _ => False

theorem step_space_none {s s' : Session X n} {o : ControlCall X} (hs : s.space = none) (ho : ¬ IsCalcContact o)
    (h : s.step E o = some s') : s'.space = none := by
  have hu : ∀ s s' : Session X n, s.space = none → s.updateContacts E = some s' → s'.space = none := by
    intro s s' hs h
    simp only [Session.updateContacts] at h
    split at h
    · cases h
    · split at h
      · cases h
        exact hs
      · cases h
  cases o with
  | update x => cases h; exact hs
  | setContact v =>
    simp only [Session.step, Session.setContact] at h
    split at h
    · exact hu _ _ hs h
    · exact hu _ _ (by exact hs) h
  | updateContacts => exact hu _ _ hs h
  | calcContact => exact absurd trivial ho
  | grav => simp [Session.step, Session.grav, hs] at h
  | gravInto => simp [Session.step, Session.gravInto, hs] at h
  | setTask i f =>
    simp only [Session.step, Session.setTask] at h
    split at h <;> cases h
    exact hs
  | taskTorque b => simp [Session.step, Session.taskTorque, hs] at h
  | redistribute b =>
    simp only [Session.step, Session.redistribute, hs] at h
    repeat' split at h
    all_goals first | cases h | skip
    all_goals rfl

theorem run_space_none {s s' : Session X n} {os : List (ControlCall X)} (hs : s.space = none) (ho : ∀ o ∈ os, ¬ IsCalcContact o)
    (h : s.run E os = some s') : s'.space = none := by
  induction os generalizing s with
  | nil => cases h; exact hs
  | cons o os ih =>
    simp only [Session.run] at h
    split at h
    · cases h
    · rename_i s1 h1
      exact ih (step_space_none hs (ho o (by simp)) h1) (fun o' ho' => ho o' (by simp [ho'])) h

/-- C74 (negation).  `SetContact` does not do the contact calculation: as long as `CalcContactConstraint` was not called, gravity
compensation and task control are undefined, and so is the contact force. -/
theorem C74_missing_contact_calc {hist : List (ControlCall X)} (ho : ∀ o ∈ hist, ¬ IsCalcContact o) :
    (Session.loaded x0 cc ts limit).run E (hist ++ [.grav]) = none ∧
    (∀ hqp, (Session.loaded x0 cc ts limit).run E (hist ++ [.taskTorque hqp]) = none) ∧
    ∀ s, (Session.loaded x0 cc ts limit).run E hist = some s → ∀ τ, s.reportedForce τ = none := by
  rcases hh : (Session.loaded x0 cc ts limit).run E hist with _ | s
  · simp [run_append, hh]
  have hs := run_space_none (by rfl) ho hh
  refine ⟨?_, fun hqp => ?_, fun s' h τ => ?_⟩
  · simp [run_append, hh, Session.run, Session.step, Session.grav, hs]
  · simp [run_append, hh, Session.run, Session.step, Session.taskTorque, hs]
  · cases h
    simp [Session.reportedForce, hs]

/-! ### A state update after the contact calculation -/

namespace StaleContact

/-- A robot of unit inertia with one joint standing on one foot, `7` of gravity pulling at the base.  In configuration `x` the joint
raises the foot `x` times as fast as it turns. -/
def foot (x : ℝ) : Matrix (Fin 6) (Fin 6 ⊕ Fin 1) ℝ :=
  Matrix.of fun i s => match s with
    | .inl j => if i = j then 1 else 0
    | .inr _ => if i = 2 then x else 0

def weight : Fin 6 ⊕ Fin 1 → ℝ := Sum.elim (Pi.single 2 7) 0

noncomputable def env (solve : Solver) (rsolve : RSolver) (cod : (W : Matrix (Fin 1) (Fin 1) ℝ) → CodNull W) : ControlEnv ℝ 1 where
  mass _ := 1
  gravity _ := weight
  com _ := 0
  yaw _ := 0
  contactJac _ x := foot x
  contactRot _ _ := 1
  contactPos _ _ := 0
  taskJac _ _ _ := 0
  solve := solve
  rsolve := rsolve
  cod := cod
  ties _ := true

theorem foot_ind (x : ℝ) : IndependentRows (foot x) := by
  intro F h
  ext i
  have := congrFun h (.inl i)
  simpa [mulVec, dotProduct, foot] using this

theorem foot_base (x : ℝ) : BaseDetermined (foot x) := by
  intro w h
  ext i
  have := congrFun h i
  simpa [mulVec, dotProduct, foot, Fintype.sum_sum_type] using this

theorem stack (solve : Solver) (rsolve : RSolver) (cod : (W : Matrix (Fin 1) (Fin 1) ℝ) → CodNull W) (x : ℝ) :
    Session.stackJac (env solve rsolve cod) x (switchedOn [true]) = foot x := by
  ext r s
  have hr : r.val < 6 := r.isLt
  simp only [Session.stackJac, env, of_apply, Nat.mod_eq_of_lt hr]
  rfl

theorem spd : IsSPD (1 : Matrix (Fin 6 ⊕ Fin 1) (Fin 6 ⊕ Fin 1) ℝ) := by
  refine ⟨transpose_one, fun w hw => ?_⟩
  rw [one_mulVec]
  obtain ⟨i, hi⟩ := Function.ne_iff.mp hw
  exact Finset.sum_pos' (fun j _ => mul_self_nonneg _) ⟨i, Finset.mem_univ i, by
    exact mul_self_pos.mpr hi⟩

/-- With the contact calculation of configuration `0`, `0` holds the robot. -/
theorem old_gravity {S : ContactSpace 6 (Fin 1)} (hS : contactSpace (foot 0) 1⁻¹ = some S) : gravityTorque S 1⁻¹ weight = 0 := by
  obtain ⟨⟨qdd, hM⟩, -, -⟩ := C01_contact_force_exact spd hS weight (gravityTorque S 1⁻¹ weight)
  have h0 := (C03_gravity_compensation spd hS weight hM).2 (foot_base 0)
  subst h0
  generalize gravityTorque S 1⁻¹ weight = τ at hM
  ext j
  have := congrFun hM.1 (.inr j)
  simp only [mulVec_zero, zero_add, Pi.add_apply, mulVec, dotProduct, transpose_apply, foot, of_apply, weight, Sum.elim_inr,
    Pi.zero_apply, actuate] at this
  simp only [ite_self, zero_mul, Finset.sum_const_zero, add_zero] at this
  simpa using this.symm

/-- In configuration `1` the joint does not stay still under `0`. -/
theorem new_motion {qdd : Fin 6 ⊕ Fin 1 → ℝ} {F : Fin 6 → ℝ} (hM : Motion 1 (foot 1) weight 0 qdd F) : qdd (.inr 0) ≠ 0 := by
  intro h0
  have hc := congrFun hM.2 2
  have hb := congrFun hM.1 (.inl 2)
  have hj := congrFun hM.1 (.inr 0)
  simp [mulVec, dotProduct, foot, Fintype.sum_sum_type, h0] at hc
  simp [mulVec, dotProduct, foot, weight, actuate, hc, Matrix.one_apply, Fintype.sum_sum_type] at hb
  simp [mulVec, dotProduct, foot, weight, actuate, h0, Matrix.one_apply, Fintype.sum_sum_type] at hj
  linarith

end StaleContact

/-- Gravity compensation and the control without tasks on a single contact. -/
theorem run_finish (s : Session X n) {m : ContactMembers n} (hs : s.space = some m) (ht : s.ts = []) (hd : s.contactDof = some 6) :
    ∃ s', s.run E [.grav, .taskTorque false, .redistribute false] = some s' ∧ s'.command = gravityTorque m.S s.Ainv s.G := by
  refine ⟨{ s with τg := gravityTorque m.S s.Ainv s.G, τt := 0, τc := 0, taskRet := 1, contactRet := 0,
                   space := some { m with P := some (gravityForce m.S s.G) } }, ?_, ?_⟩
  · simp [Session.run, Session.step, Session.grav, hs, Session.taskTorque, Session.taskInputs, ht, calcTaskSpace, Model.taskTorque,
      taskTorqueFrom, Session.redistribute, hd]
  · simp [Session.command]

open StaleContact in
theorem StaleContact.run_start (solve : Solver) (rsolve : RSolver) (cod : (W : Matrix (Fin 1) (Fin 1) ℝ) → CodNull W)
    (limit : Option (Fin 1 → ℝ)) (x : ℝ) {S : ContactSpace 6 (Fin 1)} (hR : calculateContactConstraint (foot x) 1⁻¹ cod = .ret 1 S none) :
    ∃ s, (Session.loaded 0 [exContact false] [] limit).run (env solve rsolve cod) [.update x, .setContact [true], .calcContact] =
        some s ∧ s.space = some ⟨6, S, 0, none⟩ ∧ s.ts = [] ∧ s.contactDof = some 6 ∧ s.Ainv = 1⁻¹ ∧ s.G = weight ∧
      s.cc = [exContact true] := by
  have hst : ∀ x, Session.stackJac (env solve rsolve cod) x [0] = foot x := stack solve rsolve cod
  rw [run_prep _ _ (by simp [Session.loaded])]
  simp only [Session.loaded, exContact, List.all_cons, beq_self_eq_true, List.all_nil, Bool.and_self, if_true, Session.setFlags,
    posed, List.mapIdx_cons, List.mapIdx_nil, Session.run, Session.step, calcContact_eq]
  have e : membersOf (env solve rsolve cod) (some (6 * List.count true [true])) ⟨_, Session.stackJac (env solve rsolve cod) x [0]⟩
      1⁻¹ = some ⟨6, S, 0, none⟩ := by
    rw [hst]
    simp only [membersOf, List.count_singleton_self, env, lt_irrefl, if_false, mul_one]
    erw [hR]
    rfl
  erw [e]
  exact ⟨_, rfl, rfl, rfl, rfl, rfl, rfl, rfl⟩

open StaleContact in
/-- C74 (negation).  A new state given after the contact calculation, as in the bridge's `UpdateKinematics` followed by `CalcTorque`
(and also if the contacts are set again): every call is defined, but the torque computed does not hold the robot still, while the
torque of a whole control cycle does. -/
theorem C74_stale_contact_calc (solve : Solver) (rsolve : RSolver) (cod : (W : Matrix (Fin 1) (Fin 1) ℝ) → CodNull W)
    (limit : Option (Fin 1 → ℝ)) {again : List (ControlCall ℝ)} (ha : again = [] ∨ again = [.setContact [true]]) :
    ∃ s s', (Session.loaded 0 [exContact false] [] limit).run (env solve rsolve cod)
        ([.update 0, .setContact [true], .calcContact, .update 1] ++ again ++ [.grav, .taskTorque false, .redistribute false]) =
          some s ∧
      (∀ qdd F, Motion 1 (foot 1) weight s.command qdd F → qdd ≠ 0) ∧
      (Session.loaded 0 [exContact false] [] limit).run (env solve rsolve cod) (controlCycle 1 [true] [] false) = some s' ∧
      (∀ qdd F, Motion 1 (foot 1) weight s'.command qdd F → qdd = 0) := by
  have hc : ∀ x : ℝ, ∃ S : ContactSpace 6 (Fin 1), contactSpace (foot x) 1⁻¹ = some S ∧
      calculateContactConstraint (foot x) 1⁻¹ cod = .ret 1 S none := by
    intro x
    obtain ⟨S, hS⟩ := C05_few_rows spd (foot_ind x) le_rfl cod
    refine ⟨S, ?_, hS⟩
    unfold calculateContactConstraint at hS
    split at hS
    · cases hS
    · rename_i S' e
      rw [e]
      simp at hS
      rw [hS]
  obtain ⟨S0, hS0, hR0⟩ := hc 0
  obtain ⟨S1, hS1, hR1⟩ := hc 1
  obtain ⟨s0, h0, hs0, ht0, hd0, hA0, hG0, hcc0⟩ := run_start solve rsolve cod limit 0 hR0
  obtain ⟨s1, h1, hs1, ht1, hd1, hA1, hG1, -⟩ := run_start solve rsolve cod limit 1 hR1
  obtain ⟨s', hr', hm'⟩ := run_finish (E := env solve rsolve cod) s1 hs1 ht1 hd1
  have hu : ∃ u, s0.run (env solve rsolve cod) (.update 1 :: again) = some u ∧ u.space = s0.space ∧ u.ts = [] ∧
      u.contactDof = some 6 ∧ u.Ainv = 1⁻¹ ∧ u.G = weight := by
    rcases ha with rfl | rfl
    · exact ⟨_, rfl, rfl, ht0, hd0, rfl, rfl⟩
    · rw [run_prep _ _ (by simp [hcc0])]
      simp only [hcc0, exContact, List.all_cons, beq_self_eq_true, List.all_nil, Bool.and_self, if_true]
      exact ⟨_, rfl, rfl, ht0, rfl, rfl, rfl⟩
  obtain ⟨u, hu, hus, hut, hud, huA, huG⟩ := hu
  obtain ⟨s, hr, hm⟩ := run_finish (E := env solve rsolve cod) u (hus.trans hs0) hut hud
  refine ⟨s, s', ?_, ?_, ?_, ?_⟩
  · rw [show ([.update 0, .setContact [true], .calcContact, .update 1] ++ again ++ [.grav, .taskTorque false, .redistribute false] :
        List (ControlCall ℝ)) = [.update 0, .setContact [true], .calcContact] ++ ((.update 1 :: again) ++
          [.grav, .taskTorque false, .redistribute false]) by simp, run_append, h0, Option.bind_some, run_append, hu,
      Option.bind_some, hr]
  · intro qdd F hM hq
    rw [hm, huA, huG] at hM
    rw [old_gravity hS0] at hM
    exact new_motion hM (by rw [hq]; rfl)
  · rw [show (controlCycle 1 [true] [] false : List (ControlCall ℝ)) = [.update 1, .setContact [true], .calcContact] ++
        [.grav, .taskTorque false, .redistribute false] from rfl, run_append, h1, Option.bind_some, hr']
  · intro qdd F hM
    rw [hm', hA1, hG1] at hM
    exact (C03_gravity_compensation spd hS1 weight hM).2 (foot_base 1)

/-! ### The hypotheses are met -/

namespace StandCycle

/-- The standing robot of C10: two feet, six joints. -/
noncomputable def env (cod : (W : Matrix (Fin 6) (Fin 6) ℝ) → CodNull W) : ControlEnv Unit 6 where
  mass _ := Ex.A
  gravity _ := Stand.G Stand.τ₀
  com _ := 0
  yaw _ := 0
  contactJac i _ := Matrix.of fun r s => if h : 6 * i + r.val < 12 then Ex.J ⟨6 * i + r.val, h⟩ s else 0
  contactRot _ _ := 1
  contactPos _ _ := 0
  taskJac _ _ _ := 0
  solve := Stand.solver
  rsolve := Stand.rsolver
  cod := cod
  ties _ := true

theorem stack (cod : (W : Matrix (Fin 6) (Fin 6) ℝ) → CodNull W) :
    Session.stackJac (env cod) () [0, 1] = Ex.J := by
  ext r s
  have hr : r.val < 12 := r.isLt
  have e : ∀ h, ([0, 1] : List ℕ)[r.val / 6]'h = r.val / 6 := by
    intro h
    have : r.val / 6 = 0 ∨ r.val / 6 = 1 := by omega
    rcases this with h | h <;> simp [h]
  simp only [Session.stackJac, env, of_apply, e, Nat.div_add_mod]
  rw [dif_pos hr]
  rfl

theorem on : switchedOn [true, true] = [0, 1] := by decide

theorem finish {X : Type*} {n : ℕ} {E : ControlEnv X n} (s : Session X n) {c : ℕ} {S : ContactSpace c (Fin n)}
    {N : Matrix (Fin n) (Fin (c - 6)) ℝ} {P : Fin c → ℝ} (hs : s.space = some ⟨c, S, N, some P⟩) (ht : s.ts = [])
    (ha : 6 * (active s.cc).length > 6) (hc : ¬ c ≤ 6) {τ : Fin n → ℝ}
    (h : redistribute ⟨S, N, P, s.τg, s.limit, s.cc⟩ E.rsolve (s.τg + 0) 0 = some (1, τ)) :
    ∃ s', s.run E [.taskTorque true, .redistribute true] = some s' ∧ s'.contactRet = 1 := by
  refine ⟨{ s with τt := 0, τc := τ, taskRet := 1, contactRet := 1 }, ?_, rfl⟩
  simp only [Session.run, Session.step, Session.taskTorque, hs, Session.taskInputs, ht, List.mapIdx_nil, calcTaskSpace, List.mapM_nil,
    Option.pure_def, if_true, calcTaskControlTorqueQP, qpLoop, Session.redistribute, ha, hc, if_false, Session.qpRobot, add_zero]
  rw [add_zero] at h
  rw [h]

/-- One cycle with quadratic programmes on the standing robot is defined and succeeds. -/
theorem runs (cod : (W : Matrix (Fin 6) (Fin 6) ℝ) → CodNull W) :
    ∃ s, (Session.loaded () [exContact false, exContact false] [] (some Stand.L₀)).run (env cod)
        (controlCycle () [true, true] [] true) = some s ∧ s.contactRet = 1 := by
  obtain ⟨S, k, V2, NwJw, τ1, hR, hS, h, -⟩ := C10_hypotheses_met cod
  set τg := gravityTorque S Ex.A⁻¹ (Stand.G Stand.τ₀) with hτg
  have hrun := (C10_succeeds_iff Ex.hA { Stand.robot S NwJw Stand.τ₀ Stand.L₀ with τg := τg } hS (G := Stand.G Stand.τ₀) rfl
    Stand.six Stand.plane Stand.dof (by norm_num) cod hR Stand.rsolver_exact Stand.rsolver_complete τg 0).mpr
    ⟨Stand.τ₀ + τ1 - τg, by
      have e : τg + (Stand.τ₀ + τ1 - τg) = Stand.τ₀ + τ1 := by abel
      rw [e]
      obtain ⟨hl, hh⟩ := C10_safe Ex.hA (Stand.robot S NwJw Stand.τ₀ Stand.L₀) hS (G := Stand.G Stand.τ₀) rfl
        Stand.six Stand.plane Stand.dof (by norm_num) (fun k d x hx => (Stand.rsolver_exact k d x hx).1) h
      refine ⟨hl, fun qdd F qdd' F' hM hM' => ⟨?_, hh _ _ hM'⟩⟩
      rw [add_zero] at hM
      rw [(C03_gravity_compensation Ex.hA hS _ hM).2 Ex.J_base]
      exact C10_motion_unchanged Ex.hA (Stand.robot S NwJw Stand.τ₀ Stand.L₀) (by norm_num) cod hR h
        (by rw [add_zero]; exact Stand.motion Stand.τ₀) hM'⟩
  obtain ⟨τc', hrun⟩ := hrun
  rw [run_cycle _ _ _ (by simp [Session.loaded]) (by simp [Session.loaded])]
  have e : membersOf (env cod) (some (6 * List.count true [true, true])) ⟨_, Session.stackJac (env cod) () [0, 1]⟩ Ex.A⁻¹ =
      some ⟨12, S, NwJw, none⟩ := by
    rw [stack]
    have : (6 * List.count true [true, true]) = 12 := rfl
    simp only [membersOf, this, env]
    erw [hR]
    rfl
  simp only [Session.loaded, exContact, List.all_cons, beq_self_eq_true, List.all_nil, Bool.and_self, if_true]
  erw [e]
  rw [Option.bind_some]
  refine finish (S := S) (N := NwJw) (P := gravityForce S (Stand.G Stand.τ₀)) (τ := τc') _ rfl rfl ?_ (by norm_num) hrun
  change 6 * (active Stand.cs).length > 6
  rw [← Stand.dof]
  norm_num

end StandCycle

/-- The hypotheses of C74_cycle_safe are met after any history, by a cycle that succeeds. -/
example (cod : (W : Matrix (Fin 6) (Fin 6) ℝ) → CodNull W) (hist : List (ControlCall Unit)) {s₀ : Session Unit 6}
    (h : (Session.loaded () [exContact false, exContact false] [] (some Stand.L₀)).run (StandCycle.env cod) hist = some s₀) :
    ∃ s, (Session.loaded () [exContact false, exContact false] [] (some Stand.L₀)).run (StandCycle.env cod)
        (hist ++ controlCycle () [true, true] [] true) = some s ∧ s.contactRet = 1 ∧ WithinLimit Stand.L₀ s.command ∧
      ∀ qdd F, Motion Ex.A Ex.J (Stand.G Stand.τ₀) s.command qdd F → s.reportedForce s.command = some ⟨12, F⟩ := by
  obtain ⟨s, hs, hr⟩ := StandCycle.runs cod
  rw [← C74_history_independent h () true (by simp) (by simp)] at hs
  obtain ⟨h1, -, h3⟩ := C74_cycle_safe hs hr (by simp) (by simp) (by simp) Ex.hA (by simp [exContact])
    (fun k d x hx => (Stand.rsolver_exact k d x hx).1)
  refine ⟨s, hs, hr, h1 _ rfl, fun qdd F hM => (h3 qdd F ?_).2⟩
  have := StandCycle.stack cod
  rw [← this] at hM
  exact hM

/-- C74_history_independent and C74_force_needs_gravity apply to real histories: the contact calculation of the robot on one foot is
defined, the force is not available after it, and a cycle afterwards is as on a new robot. -/
example (solve : Solver) (rsolve : RSolver) (cod : (W : Matrix (Fin 1) (Fin 1) ℝ) → CodNull W) :
    ∃ s, (Session.loaded 0 [exContact false] [] none).run (StaleContact.env solve rsolve cod)
        [.update 0, .setContact [true], .calcContact] = some s ∧ s.reportedForce 0 = none ∧
      s.run (StaleContact.env solve rsolve cod) (controlCycle 1 [true] [] false) =
        (Session.loaded 0 [exContact false] [] none).run (StaleContact.env solve rsolve cod) (controlCycle 1 [true] [] false) := by
  obtain ⟨S, hS⟩ := C05_few_rows StaleContact.spd (StaleContact.foot_ind 0) le_rfl cod
  obtain ⟨s, h, -⟩ := StaleContact.run_start solve rsolve cod none 0 hS
  refine ⟨s, h, C74_force_needs_gravity (hist := [.update 0, .setContact [true]]) h 0, ?_⟩
  have := C74_history_independent h 1 (v := [true]) (fs := []) false (by simp) (by simp)
  rwa [run_append, h, Option.bind_some] at this

/-- C74_gravity_cycle applies: the robot on one foot is held still. -/
example (solve : Solver) (rsolve : RSolver) (cod : (W : Matrix (Fin 1) (Fin 1) ℝ) → CodNull W) :
    ∃ s, (Session.loaded 0 [exContact false] [] none).run (StaleContact.env solve rsolve cod)
        [.update 1, .setContact [true], .calcContact, .grav] = some s ∧
      ∀ qdd F, Motion 1 (StaleContact.foot 1) StaleContact.weight s.command qdd F → qdd = 0 := by
  obtain ⟨S, hS⟩ := C05_few_rows StaleContact.spd (StaleContact.foot_ind 1) le_rfl cod
  obtain ⟨s, h, hs, -⟩ := StaleContact.run_start solve rsolve cod none 1 hS
  have e : (Session.loaded 0 [exContact false] [] none).run (StaleContact.env solve rsolve cod)
      [.update 1, .setContact [true], .calcContact, .grav] = s.grav := by
    have := run_append (E := StaleContact.env solve rsolve cod) (Session.loaded 0 [exContact false] [] none)
      [.update 1, .setContact [true], .calcContact] [.grav]
    rw [h, Option.bind_some] at this
    refine this.trans ?_
    simp only [Session.run, Session.step]
    rcases s.grav with _ | s' <;> rfl
  have hg : ∃ s', s.grav = some s' := by simp [Session.grav, hs]
  obtain ⟨s', hg⟩ := hg
  refine ⟨s', e.trans hg, fun qdd F hM => ?_⟩
  have hst := StaleContact.stack solve rsolve cod 1
  have := (C74_gravity_cycle (hist := []) (e.trans hg) (by simp) StaleContact.spd).2 qdd F (by
    rw [← hst] at hM
    exact hM)
  refine this.2.1 ?_
  have hb := StaleContact.foot_base 1
  rw [← hst] at hb
  exact hb

/-- C74_missing_contact_calc and C74_no_contact_undefined: the loop of example/test.cpp 149-157, and a jump. -/
example {x : X} : (Session.loaded x0 [exContact false, exContact false] ts limit).run E
      [.update x, .setContact [true, true], .grav] = none ∧
    (Session.loaded x0 [exContact false, exContact false] ts limit).run E
      [.update x, .setContact [false, false], .calcContact] = none :=
  ⟨(C74_missing_contact_calc (hist := [.update x, .setContact [true, true]]) (by simp [IsCalcContact])).1,
    (C74_no_contact_undefined [.update x] x (v := [false, false]) [] true (by simp) (by simp)).1⟩

end Verif.Props
