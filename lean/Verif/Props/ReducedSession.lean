import Verif.Lemmas.ReducedSession
import Verif.Lemmas.Registry
import Verif.Props.Session
import Verif.Props.TaskKind
import Verif.Props.ReducedQP

/-!
# C76: order and mixture of the control calls of the full and of the reduced model
-/

set_option linter.unusedSectionVars false

namespace Verif.Props
open Matrix Verif Verif.Model Verif.Spec

variable {X : Type*} {n : ℕ} {E : ReducedEnv X n} {x0 : X} {cc : List ContactLink} {ts : List ℕ} {limit : Option (Fin n → ℝ)}

/-! ### What a cycle depends on -/

/-- C76 (what is proved of it).  After any defined history of calls of both models without task control of the reduced model, a cycle
with the reduced model on at least two contacts gives exactly what it gives on a robot just loaded (and is undefined in the same
cases).  `core` leaves out the contact members of the full model, which the cycle does not touch. -/
theorem C76_after_full_calls_partial {hist : List (RCall X)} {r : RSession X n} (ho : ∀ o ∈ hist, ¬ IsTaskCall o)
    (hh : (RSession.loaded x0 cc ts limit).run E hist = some r) (x : X) {v : List Bool} {fs : List (ℕ → ℝ)} (hqp : Bool)
    (hv : v.length ≤ cc.length) (hf : fs.length = ts.length) (h2 : 2 ≤ v.count true) :
    ((RSession.loaded x0 cc ts limit).run E (hist ++ reducedCycle x v fs hqp)).map (·.core) =
      ((RSession.loaded x0 cc ts limit).run E (reducedCycle x v fs hqp)).map (·.core) := by
  rw [rrun_append, hh, Option.bind_some]
  refine (rcycle_congr (rrun_sameSetup hh) x (by rw [rrun_kinds ho hh]) hqp ?_ ?_ (.inl h2)).symm
  · simpa [RSession.loaded, Session.loaded] using hv
  · simpa [RSession.loaded, Session.loaded] using hf

/-- one task on links, in closed form -/
theorem foldl_visit_eq (t : IdxTable) (ids : List ℕ) : ∃ (a b c : Bool) (m : ℕ), ∀ (k : Kind) (n : ℕ),
    ids.foldl (visitLink t) (k, n) =
      (⟨k.cmm || a, k.reduced || b, k.noncont || c, if m = 0 then k.order else n + m - 1⟩, n + m) := by
  induction ids with
  | nil => exact ⟨false, false, false, 0, fun k n => by simp⟩
  | cons i ids ih =>
    obtain ⟨a, b, c, m, h⟩ := ih
    by_cases h1 : i = t.linkNum
    · refine ⟨true, b, c, m, fun k n => ?_⟩
      simp [visitLink, h1, h]
    by_cases h2 : i ∈ 0 :: t.coLinks
    · refine ⟨a, true, c, m, fun k n => ?_⟩
      simp only [List.foldl_cons, visitLink, h1, h2, h, if_true, if_false]
      simp
    · refine ⟨a, b, true, m + 1, fun k n => ?_⟩
      simp only [List.foldl_cons, visitLink, h1, h2, h, if_false]
      simp only [Bool.or_true, Bool.true_or, Nat.add_eq_zero_iff, one_ne_zero, and_false, if_false]
      congr 1
      · congr 1
        split <;> omega
      · omega

theorem classifyOne_idem (t : IdxTable) (n : ℕ) (k : Kind) (d : TaskDesc) :
    classifyOne t n (classifyOne t n k d).1 d = classifyOne t n k d := by
  cases d with
  | custom l r =>
    simp only [classifyOne]
    by_cases hl : l > 1e-4 <;> by_cases hr : r > 1e-4 <;> simp only [hl, hr, if_true, if_false]
  | links ids =>
    obtain ⟨a, b, c, m, h⟩ := foldl_visit_eq t ids
    simp only [classifyOne, h, Bool.or_assoc, Bool.or_self]
    congr 2
    split <;> rfl

/-- The same call again changes nothing. -/
theorem classify_idem (t : IdxTable) (ds : List TaskDesc) (ks : List Kind) : classify t ds (classify t ds ks) = classify t ds ks := by
  have : ∀ n, classifyFrom t n (ds.zip (classifyFrom t n (ds.zip ks))) = classifyFrom t n (ds.zip ks) := by
    induction ds generalizing ks with
    | nil => intro n; rfl
    | cons d ds ih =>
      intro n
      cases ks with
      | nil => rfl
      | cons k ks =>
        simp only [List.zip_cons_cons, classifyFrom, classifyOne_idem, ih]
  exact this 0

/-- The flags of the contacts. -/
theorem activeIdx_flags {a b : List ContactLink} (h : a.map ContactLink.contact = b.map ContactLink.contact) :
    Session.activeIdx a = Session.activeIdx b := by
  have hl : a.length = b.length := by simpa using congrArg List.length h
  rw [activeIdx_eq, activeIdx_eq, hl]
  apply List.filter_congr
  intro i _
  have := congrArg (fun l : List Bool => l[i]?) h
  simp only [List.getElem?_map] at this
  rw [this]

theorem activeIdx_setFlags {cc : List ContactLink} {v : List Bool} (hv : v.length ≤ cc.length) (E : ControlEnv X n) (x : X) :
    Session.activeIdx (Session.setFlags cc v) = switchedOn v := by
  rw [← activeIdx_contactsNow (E := E) x hv]
  apply activeIdx_flags
  rw [setFlags_eq, contactsNow]
  apply List.ext_getElem?
  intro i
  simp only [List.getElem?_map, List.getElem?_mapIdx, Option.map_map]
  rfl

theorem updateContacts_flags {E : ControlEnv X n} {s s' : Session X n} (h : s.updateContacts E = some s') :
    Session.activeIdx s'.cc = Session.activeIdx s.cc ∧ s'.contactDof = s.contactDof := by
  simp only [Session.updateContacts] at h
  repeat' split at h
  all_goals first | cases h | skip
  refine ⟨?_, rfl⟩
  apply activeIdx_flags
  apply List.ext_getElem?
  intro i
  simp only [List.getElem?_map, List.getElem?_mapIdx, Option.map_map]
  rfl

/-- A call that sets other contacts than `v`. -/
def SetsOther (v : List Bool) : RCall X → Prop
  | .full (.setContact w) => w ≠ v
  | _ => False

theorem step_flags {E : ControlEnv X n} {s s' : Session X n} {o : ControlCall X} {v : List Bool} (hv : v.length ≤ s.cc.length)
    (ho : ¬ SetsOther v (.full o)) (h : s.step E o = some s') (hi : s.contactDof ≠ none → Session.activeIdx s.cc = switchedOn v) :
    s'.contactDof ≠ none → Session.activeIdx s'.cc = switchedOn v := by
  cases o with
  | update x => cases h; exact hi
  | setContact w =>
    simp only [SetsOther, not_not] at ho
    subst ho
    simp only [Session.step, Session.setContact, Nat.not_lt.mpr hv, if_false] at h
    obtain ⟨h1, h2⟩ := updateContacts_flags h
    intro _
    rw [h1]
    exact activeIdx_setFlags hv E s.x
  | updateContacts =>
    obtain ⟨h1, h2⟩ := updateContacts_flags h
    rw [h1, h2]
    exact hi
  | calcContact =>
    simp only [Session.step, Session.calcContact] at h
    repeat' split at h
    all_goals first | cases h | skip
    all_goals exact hi
  | grav =>
    simp only [Session.step, Session.grav] at h
    repeat' split at h
    all_goals first | cases h | skip
    all_goals exact hi
  | gravInto =>
    simp only [Session.step, Session.gravInto] at h
    repeat' split at h
    all_goals first | cases h | skip
    all_goals exact hi
  | setTask i f =>
    simp only [Session.step, Session.setTask] at h
    repeat' split at h
    all_goals first | cases h | skip
    all_goals exact hi
  | taskTorque b =>
    simp only [Session.step] at h
    obtain ⟨_, _, _, rfl⟩ := taskTorque_some h
    exact hi
  | redistribute b =>
    simp only [Session.step, Session.redistribute] at h
    repeat' split at h
    all_goals first | cases h | skip
    all_goals exact hi

theorem mapIdx_fst {α β γ : Type*} {a : List α} {b : List β} (h : a.length = b.length) (f : ℕ → γ) :
    (a.mapIdx fun i _ => f i) = b.mapIdx fun i _ => f i := by
  apply List.ext_getElem?
  intro i
  simp only [List.getElem?_mapIdx]
  by_cases hi : i < a.length
  · rw [List.getElem?_eq_getElem hi, List.getElem?_eq_getElem (h ▸ hi)]
    rfl
  · rw [List.getElem?_eq_none (by omega), List.getElem?_eq_none (by omega)]
    rfl

/-- What holds as long as no other contacts than `v` are set. -/
structure OnlyContacts (E : ReducedEnv X n) (v : List Bool) (d : ℕ → TaskDesc) (r0 r : RSession X n) : Prop where
  same : r0.s.SameSetup r.s
  flags : r.s.contactDof ≠ none → Session.activeIdx r.s.cc = switchedOn v
  act : ∀ m, r.red = some m → m.active = switchedOn v
  kinds : r.kinds = r0.kinds ∨ r.kinds = classify (E.table (switchedOn v)) (r0.s.ts.mapIdx fun i _ => d i) r0.kinds

theorem onlyContacts_step {v : List Bool} {d : ℕ → TaskDesc} {r0 r r' : RSession X n} (hv : v.length ≤ r0.s.cc.length)
    (hd : ∀ i x, E.taskDesc (switchedOn v) i x = d i) (hi : OnlyContacts E v d r0 r) {o : RCall X} (ho : ¬ SetsOther v o)
    (h : r.step E o = some r') : OnlyContacts E v d r0 r' := by
  have hl : r0.s.cc.length = r.s.cc.length := by simpa using congrArg List.length hi.same.cc
  have ht : r0.s.ts.length = r.s.ts.length := by simpa using congrArg List.length hi.same.ts
  have hset := hi.same.trans (rstep_setup h)
  have hkind : ¬ IsTaskCall o → r'.kinds = r0.kinds ∨
      r'.kinds = classify (E.table (switchedOn v)) (r0.s.ts.mapIdx fun i _ => d i) r0.kinds := by
    intro ho
    rw [rstep_kinds ho h]
    exact hi.kinds
  cases o with
  | full o =>
    obtain ⟨s, hs, h1, h2, -, -⟩ := full_some h
    refine ⟨hset, ?_, ?_, hkind nofun⟩
    · rw [h1]
      exact step_flags (hl ▸ hv) ho hs hi.flags
    · rw [h2]
      exact hi.act
  | dynamics =>
    have hk := hkind nofun
    rw [RSession.step, dynamics_eq] at h
    obtain ⟨m, hm, rfl⟩ := Option.map_eq_some_iff.mp h
    refine ⟨hset, hi.flags, ?_, hk⟩
    intro m' e
    cases e
    rw [dynOut_active hm]
    refine hi.flags ?_
    intro e
    simp [dynOut, e] at hm
  | contact =>
    have hk := hkind nofun
    simp only [RSession.step] at h
    rcases hm : r.red with _ | m
    · simp [RSession.contact, hm] at h
    rw [contact_eq r hm] at h
    obtain ⟨q, -, rfl⟩ := Option.map_eq_some_iff.mp h
    refine ⟨hset, hi.flags, ?_, hk⟩
    intro m' e
    cases e
    exact hi.act m hm
  | grav =>
    have hk := hkind nofun
    simp only [RSession.step, RSession.grav] at h
    repeat' split at h
    all_goals first | cases h | skip
    rename_i m hm _ _ _ _
    refine ⟨hset, hi.flags, ?_, hk⟩
    intro m' e
    cases e
    exact hi.act m hm
  | task hqp =>
    simp only [RSession.step] at h
    rcases hm : r.red with _ | m
    · simp [RSession.task, hm] at h
    rcases hq : m.con with _ | q
    · simp [RSession.task, hm, hq] at h
    rw [task_eq r hm hq] at h
    obtain ⟨o, -, rfl⟩ := Option.map_eq_some_iff.mp h
    refine ⟨hset, hi.flags, hi.act, .inr ?_⟩
    simp only [kindsAt, hi.act m hm, hd]
    rw [mapIdx_fst ht.symm d]
    rcases hi.kinds with e | e
    · rw [e]
    · rw [e, classify_idem]
  | redistribute hqp =>
    have hk := hkind nofun
    simp only [RSession.step, RSession.redistribute] at h
    repeat' split at h
    all_goals first | cases h | skip
    all_goals exact ⟨hset, hi.flags, hi.act, hk⟩

theorem onlyContacts_run {v : List Bool} {d : ℕ → TaskDesc} {r0 r r' : RSession X n} (hv : v.length ≤ r0.s.cc.length)
    (hd : ∀ i x, E.taskDesc (switchedOn v) i x = d i) (hi : OnlyContacts E v d r0 r) {os : List (RCall X)}
    (ho : ∀ o ∈ os, ¬ SetsOther v o) (h : r.run E os = some r') : OnlyContacts E v d r0 r' := by
  induction os generalizing r with
  | nil => cases h; exact hi
  | cons o os ih =>
    simp only [RSession.run] at h
    obtain ⟨r1, h1, h2⟩ := Option.bind_eq_some_iff.mp h
    exact ih (onlyContacts_step hv hd hi (ho o (by simp)) h1) (fun o' ho' => ho o' (by simp [ho'])) h2

/-- C76 (what is proved of it).  As long as the contacts are always the same: after any defined history of calls of both models, in any
order, a cycle with the reduced model on at least two contacts gives exactly what it gives on a robot just loaded (and is undefined in
the same cases).  `hd`: what the classification reads of a task is the same in all configurations, as it is for tasks on links. -/
theorem C76_same_contacts_partial {v : List Bool} {hist : List (RCall X)} {r : RSession X n} (ho : ∀ o ∈ hist, ¬ SetsOther v o)
    {d : ℕ → TaskDesc} (hd : ∀ i x, E.taskDesc (switchedOn v) i x = d i)
    (hh : (RSession.loaded x0 cc ts limit).run E hist = some r) (x : X) {fs : List (ℕ → ℝ)} (hqp : Bool)
    (hv : v.length ≤ cc.length) (hf : fs.length = ts.length) (h2 : 2 ≤ v.count true) :
    ((RSession.loaded x0 cc ts limit).run E (hist ++ reducedCycle x v fs hqp)).map (·.core) =
      ((RSession.loaded x0 cc ts limit).run E (reducedCycle x v fs hqp)).map (·.core) := by
  have hi : OnlyContacts E v d (RSession.loaded x0 cc ts limit) r :=
    onlyContacts_run hv hd ⟨.refl _, nofun, nofun, .inl rfl⟩ ho hh
  rw [rrun_append, hh, Option.bind_some]
  refine (rcycle_congr hi.same x ?_ hqp hv ?_ (.inl h2)).symm
  · have ha : Session.activeIdx (contactsAt E.toControlEnv (RSession.loaded (n := n) x0 cc ts limit).s.cc x v) = switchedOn v := by
      rw [contactsAt_eq]
      exact activeIdx_contactsNow x hv
    have hl : (commanded (RSession.loaded (n := n) x0 cc ts limit).s.ts fs).length =
        (RSession.loaded (n := n) x0 cc ts limit).s.ts.length := by
      simp [commanded, RSession.loaded, Session.loaded, hf]
    simp only [kindsAt, ha, hd]
    rw [mapIdx_fst hl d]
    rcases hi.kinds with e | e
    · rw [e]
    · rw [e, classify_idem]
  · simpa [RSession.loaded, Session.loaded] using hf

/-! ### The robot and its reduced model -/

/-- Joints renumbered. -/
theorem motion_reindex {ι κ : Type*} [Fintype ι] [DecidableEq ι] [Fintype κ] [DecidableEq κ] (e : κ ≃ ι) {c : ℕ}
    {A : Matrix (Fin 6 ⊕ ι) (Fin 6 ⊕ ι) ℝ} {J : Matrix (Fin c) (Fin 6 ⊕ ι) ℝ} {G qdd : Fin 6 ⊕ ι → ℝ} {τ : ι → ℝ} {F : Fin c → ℝ}
    (h : Motion A J G τ qdd F) : Motion (A.submatrix (Equiv.sumCongr (Equiv.refl _) e) (Equiv.sumCongr (Equiv.refl _) e))
      (J.submatrix id (Equiv.sumCongr (Equiv.refl _) e)) (G ∘ Equiv.sumCongr (Equiv.refl _) e) (τ ∘ e)
      (qdd ∘ Equiv.sumCongr (Equiv.refl _) e) F := by
  set E6 : Fin 6 ⊕ κ ≃ Fin 6 ⊕ ι := Equiv.sumCongr (Equiv.refl _) e with hE
  constructor
  · have h1 := h.1
    unfold Dynamics at h1 ⊢
    have e1 : A.submatrix E6 E6 *ᵥ (qdd ∘ E6) = (A *ᵥ qdd) ∘ E6 := by
      ext i
      exact E6.sum_comp (fun j => A (E6 i) j * qdd j)
    have e2 : (J.submatrix id E6)ᵀ *ᵥ F = (Jᵀ *ᵥ F) ∘ E6 := rfl
    rw [e1, e2]
    ext i
    have := congrFun h1 (E6 i)
    rcases i with i | i <;> exact this
  · have h2 := h.2
    unfold ContactsFixed at h2 ⊢
    rw [← h2]
    ext i
    exact E6.sum_comp (fun j => J i j * qdd j)

/-- What the theorems on the reduced model (C40, C41, C55) assume of a robot in configuration `x` on the contacts `act`: contact-chain
joints stored before the others, which are coupled to them through the base only, contacts that involve contact-chain joints only,
determine the base, have independent rows, and at least as many as there are contact-chain joints. -/
structure Reducible (E : ReducedEnv X n) (x : X) (act : List ℕ) (sp : RSplit n) : Prop where
  split : E.split act = some sp
  vc : sp.vcIdx = vcOf
  nc : sp.ncIdx = ncOf
  mass : IsSPD (E.mass x)
  rot : E.baseRotm x * (E.baseRotm x)ᵀ = 1
  coupling : ∀ (i : Fin sp.k) (j : Fin sp.nc), E.mass x (.inr (jointEquiv sp.sum (.inl i))) (.inr (jointEquiv sp.sum (.inr j))) = 0
  chains : ∀ r (j : Fin sp.nc), Session.stackJac E.toControlEnv x act r (.inr (jointEquiv sp.sum (.inr j))) = 0
  rows : sp.k ≤ 6 * act.length
  indep : IndependentRows (Session.stackJac E.toControlEnv x act)
  base : BaseDetermined (Session.stackJac E.toControlEnv x act)

section Reducible

variable {x : X} {act : List ℕ} {sp : RSplit n}

/-- the mass matrix in the order of the reduced model -/
noncomputable abbrev massR (E : ReducedEnv X n) (x : X) (sp : RSplit n) : Matrix (RSys (Fin sp.k) (Fin sp.nc)) (RSys (Fin sp.k) (Fin sp.nc)) ℝ :=
  (E.mass x).submatrix (sysEquiv sp.sum) (sysEquiv sp.sum)

noncomputable abbrev jacR (E : ReducedEnv X n) (x : X) (act : List ℕ) (sp : RSplit n) :
    Matrix (Fin (6 * act.length)) (RSys (Fin sp.k) (Fin sp.nc)) ℝ :=
  (Session.stackJac E.toControlEnv x act).submatrix id (sysEquiv sp.sum)

theorem Reducible.spd (h : Reducible E x act sp) : IsSPD (massR E x sp) := by
  refine ⟨?_, fun w hw => ?_⟩
  · rw [transpose_submatrix, h.mass.1]
  · have := h.mass.2 (w ∘ (sysEquiv sp.sum).symm) (fun e => hw (by
      ext i
      have := congrFun e (sysEquiv sp.sum i)
      simpa using this))
    have e1 : massR E x sp *ᵥ w = (E.mass x *ᵥ (w ∘ (sysEquiv sp.sum).symm)) ∘ sysEquiv sp.sum := by
      ext i
      rw [Function.comp_apply, mulVec, mulVec, dotProduct, dotProduct, ← (sysEquiv sp.sum).sum_comp]
      simp
    rw [e1, dotProduct, ← (sysEquiv sp.sum).symm.sum_comp]
    simpa [dotProduct] using this

theorem Reducible.inv (h : Reducible E x act sp) :
    ((E.mass x)⁻¹).submatrix (sysEquiv sp.sum) (sysEquiv sp.sum) = (massR E x sp)⁻¹ := by
  rw [massR, inv_submatrix_equiv]

theorem Reducible.indepR (h : Reducible E x act sp) : IndependentRows (jacR E x act sp) := by
  intro F hF
  refine h.indep F ?_
  ext i
  have := congrFun hF ((sysEquiv sp.sum).symm i)
  simpa [mulVec, dotProduct] using this

theorem Reducible.baseR (h : Reducible E x act sp) : BaseDetermined (jacR E x act sp) := by
  intro w hw
  refine h.base w ?_
  rw [← hw]
  ext r
  simp [mulVec, dotProduct, Fintype.sum_sum_type, sysEquiv]

theorem Reducible.chainsR (h : Reducible E x act sp) (r : Fin (6 * act.length)) (j : Fin sp.nc) : jacR E x act sp r (ncOf j) = 0 :=
  h.chains r j

theorem Reducible.couplingR (h : Reducible E x act sp) (i : Fin sp.k) (j : Fin sp.nc) :
    massR E x sp (.inr (.inl i)) (.inr (.inr j)) = 0 := h.coupling i j

theorem Reducible.baseRows (h : Reducible E x act sp) : sp.baseRows (E.mass x) = baseNc (massR E x sp) := by
  ext a j
  simp only [RSplit.baseRows, of_apply, baseNc, h.nc]
  rfl

/-- What the calculations of the reduced model are computed from. -/
theorem Reducible.members (h : Reducible E x act sp) {s : Session X n} (hx : s.x = x) (hA : s.Ainv = (E.mass x)⁻¹)
    (hG : s.G = E.gravity x) (ha : Session.activeIdx s.cc = act)
    (hJ : s.J = ⟨_, Session.stackJac E.toControlEnv x act⟩) {m : RMembers n} (hm : dynOut E s = some m)
    {q : RContactMembers m.k m.nc} (hq : conOut E s m = some q) :
    ∃ J D C N g, m = ⟨sp.k, sp.nc, sp.sum, act, D, none⟩ ∧ HEq q (⟨6 * act.length, C, N, g⟩ : RContactMembers sp.k sp.nc) ∧
      jInc (E.ncInertia act x) (E.baseRotm x) (baseNc (massR E x sp)) = some J ∧
      reduce vcOf ncOf (massR E x sp)⁻¹ J (E.gravity x ∘ sysEquiv sp.sum) = some D ∧
      reducedContact D (jacR E x act sp) (massR E x sp)⁻¹ = some C ∧
      (6 < 6 * act.length → reducedNwJw C (E.codR sp.k C.W) = some N) := by
  simp only [dynOut, ha, h.split, hx, h.baseRows, hA, h.inv, hG, h.vc, h.nc] at hm
  split at hm
  · cases hm
  rename_i d hd
  split at hm
  · cases hm
  rcases hJ' : jInc (E.ncInertia act x) (E.baseRotm x) (baseNc (massR E x sp)) with _ | J
  · simp [hJ'] at hm
  simp only [hJ'] at hm
  rcases hD : reduce vcOf ncOf (massR E x sp)⁻¹ J (E.gravity x ∘ sysEquiv sp.sum) with _ | D
  · simp only [hD] at hm
    cases hm
  simp only [hD] at hm
  cases hm
  rw [conOut, hd, hJ, hA] at hq
  simp only [conAt, h.inv] at hq
  split at hq
  · cases hq
  split at hq
  · cases hq
  rename_i C hC
  split at hq
  · split at hq
    · cases hq
    rename_i N hN
    cases hq
    exact ⟨J, D, C, N, false, rfl, HEq.rfl, rfl, hD, hC, fun _ => hN⟩
  · rename_i h6
    cases hq
    exact ⟨J, D, C, 0, false, rfl, HEq.rfl, rfl, hD, hC, fun h => absurd h h6⟩

/-- When they are defined. -/
theorem Reducible.defined (h : Reducible E x act sp) {s : Session X n} (hx : s.x = x) (hA : s.Ainv = (E.mass x)⁻¹)
    (hG : s.G = E.gravity x) (ha : Session.activeIdx s.cc = act)
    (hJ : s.J = ⟨_, Session.stackJac E.toControlEnv x act⟩) (hd : s.contactDof = some (6 * act.length)) (h1 : 1 ≤ act.length)
    {J : Matrix (Fin 6) (Fin sp.nc) ℝ} (hJ' : jInc (E.ncInertia act x) (E.baseRotm x) (baseNc (massR E x sp)) = some J)
    {D : Reduced (Fin sp.k) (Fin sp.nc)} (hD : reduce vcOf ncOf (massR E x sp)⁻¹ J (E.gravity x ∘ sysEquiv sp.sum) = some D)
    {C : ReducedContact (6 * act.length) (Fin sp.k) (Fin sp.nc)} (hC : reducedContact D (jacR E x act sp) (massR E x sp)⁻¹ = some C)
    {N : Matrix (Fin sp.k ⊕ Fin 6) (Fin (6 * act.length - 6)) ℝ}
    (hN : if 6 < 6 * act.length then reducedNwJw C (E.codR sp.k C.W) = some N else N = 0) :
    dynOut E s = some ⟨sp.k, sp.nc, sp.sum, act, D, none⟩ ∧
      conOut E s ⟨sp.k, sp.nc, sp.sum, act, D, none⟩ = some ⟨6 * act.length, C, N, false⟩ := by
  have hlt : ¬ s.J.1 < 6 * act.length := by rw [hJ]; simp
  constructor
  · simp only [dynOut, hd, hlt, if_false, ha, h.split, hx, h.baseRows, hA, h.inv, hG, h.vc, h.nc, hJ', hD]
  · rw [conOut, hd, hJ, hA]
    simp only [conAt, h.inv, hC]
    rw [if_neg (by omega)]
    split_ifs at hN with h6
    · simp only [gt_iff_lt, h6, if_true, hN]
    · subst hN
      simp only [gt_iff_lt, h6, if_false]

end Reducible

/-! ### Gravity compensation alone -/

theorem prepared_members {x : X} {v : List Bool} {sp : RSplit n} (hR : Reducible E x (switchedOn v) sp) {r0 : RSession X n}
    (h0 : (RSession.loaded x0 cc ts limit).s.SameSetup r0.s) (hv : v.length ≤ cc.length) {m : RMembers n}
    (hm : dynOut E (preparedAt E.toControlEnv r0.s x v) = some m)
    {q : RContactMembers m.k m.nc} (hq : conOut E (preparedAt E.toControlEnv r0.s x v) m = some q) :
    ∃ J D C N g, m = ⟨sp.k, sp.nc, sp.sum, switchedOn v, D, none⟩ ∧
      HEq q (⟨6 * (switchedOn v).length, C, N, g⟩ : RContactMembers sp.k sp.nc) ∧
      jInc (E.ncInertia (switchedOn v) x) (E.baseRotm x) (baseNc (massR E x sp)) = some J ∧
      reduce vcOf ncOf (massR E x sp)⁻¹ J (E.gravity x ∘ sysEquiv sp.sum) = some D ∧
      reducedContact D (jacR E x (switchedOn v) sp) (massR E x sp)⁻¹ = some C ∧
      (6 < 6 * (switchedOn v).length → reducedNwJw C (E.codR sp.k C.W) = some N) := by
  have hcc : contactsAt E.toControlEnv r0.s.cc x v = contactsNow E.toControlEnv cc x v :=
    (posed_setFlags _ v h0.cc).symm.trans (contactsAt_eq x v)
  have ha : Session.activeIdx (contactsAt E.toControlEnv r0.s.cc x v) = switchedOn v := by
    rw [hcc, activeIdx_contactsNow (E := E.toControlEnv) x hv]
  refine hR.members (s := preparedAt E.toControlEnv r0.s x v) rfl rfl rfl ha ?_ hm hq
  change jacAt E.toControlEnv r0.s.cc x v = _
  exact congrArg (fun l => (⟨_, Session.stackJac E.toControlEnv x l⟩ : (c : ℕ) × Matrix (Fin c) (Fin 6 ⊕ Fin n) ℝ)) ha

/-- C76 (negation).  `ReducedCalcGravCompensation` does not take back the torques of earlier cycles (that of the full model does,
`C74_gravity_cycle`).  After any history, state, contacts, reduced model and gravity compensation make the robot move exactly as the
task and contact torques of that history would move it without gravity. -/
theorem C76_gravity_keeps_torques {hist : List (RCall X)} {r0 r : RSession X n} {x : X} {v : List Bool} {sp : RSplit n}
    (hh : (RSession.loaded x0 cc ts limit).run E hist = some r0)
    (hr : (RSession.loaded x0 cc ts limit).run E (hist ++ (reducedPrep x v ++ [.grav])) = some r)
    (hv : v.length ≤ cc.length) (hR : Reducible E x (switchedOn v) sp) :
    r.s.τt = r0.s.τt ∧ r.s.τc = r0.s.τc ∧
    (∃ qdd F, Motion (E.mass x) (Session.stackJac E.toControlEnv x (switchedOn v)) (E.gravity x) r.command qdd F) ∧
    ∀ qdd F, Motion (E.mass x) (Session.stackJac E.toControlEnv x (switchedOn v)) (E.gravity x) r.command qdd F →
      ∃ F', Motion (E.mass x) (Session.stackJac E.toControlEnv x (switchedOn v)) 0 (r0.s.τt + r0.s.τc) qdd F' := by
  have hset := rrun_sameSetup hh
  have hl : r0.s.cc.length = cc.length := by
    simpa [RSession.loaded, Session.loaded] using (congrArg List.length hset.cc).symm
  rw [rrun_append, hh, Option.bind_some, rrun_prep0 r0 x (hl ▸ hv)] at hr
  split at hr
  swap
  · cases hr
  obtain ⟨m, hm, hr⟩ := Option.bind_eq_some_iff.mp hr
  obtain ⟨q, hq, hr⟩ := Option.bind_eq_some_iff.mp hr
  obtain ⟨J, D, C, N, g, rfl, hqq, hJ, hD, hC, hN⟩ := prepared_members hR hset hv hm hq
  cases hqq
  simp only [RSession.run, RSession.step, RSession.grav] at hr
  split at hr
  · cases hr
  simp only [Option.bind_some] at hr
  cases hr
  refine ⟨rfl, rfl, ?_⟩
  obtain ⟨So, hSo⟩ := Option.isSome_iff_exists.mp ((C02_finite_iff_independent hR.mass).mpr hR.indep)
  obtain ⟨S, hS⟩ := Option.isSome_iff_exists.mp ((C02_finite_iff_independent hR.spd).mpr hR.indepR)
  have hg := C41_gravity_torque_partial hR.spd hD hR.chainsR hR.rows hR.baseR hS hC
  obtain ⟨⟨qdd, hq⟩, -, -⟩ := C01_contact_force_exact hR.mass hSo (E.gravity x)
    (reducedGravityTorque D C ∘ (jointEquiv sp.sum).symm + r0.s.τt + r0.s.τc)
  refine ⟨⟨_, _, hq⟩, fun qdd F h => ?_⟩
  obtain ⟨⟨qdd', h'⟩, -, -⟩ := C01_contact_force_exact hR.mass hSo 0 (r0.s.τt + r0.s.τc)
  have h1 := motion_reindex (jointEquiv sp.sum) h
  have h2 := motion_reindex (jointEquiv sp.sum) h'
  have e1 : RSession.command
      { r0 with
        s := { preparedAt E.toControlEnv r0.s x v with τg := reducedGravityTorque D C ∘ (jointEquiv sp.sum).symm }
        over := some ⟨6 * (switchedOn v).length, C.JcInvT.submatrix id (sysEquiv sp.sum).symm⟩
        red := some ⟨sp.k, sp.nc, sp.sum, switchedOn v, D, some ⟨_, C, N, true⟩⟩ } ∘ jointEquiv sp.sum =
      gravityTorque S (massR E x sp)⁻¹ (E.gravity x ∘ sysEquiv sp.sum) + (r0.s.τt + r0.s.τc) ∘ jointEquiv sp.sum := by
    rw [← hg]
    ext i
    simp [RSession.command, Session.command, preparedAt, add_assoc]
  have h3 : qdd ∘ sysEquiv sp.sum = S.AinvNc *ᵥ actuate ((r0.s.τt + r0.s.τc) ∘ jointEquiv sp.sum) := by
    refine acc_of_motion (G := E.gravity x ∘ sysEquiv sp.sum) (F := F) hR.spd hS hR.baseR ?_
    rw [← e1]
    exact h1
  have h4 : qdd' ∘ sysEquiv sp.sum = S.AinvNc *ᵥ (actuate ((r0.s.τt + r0.s.τc) ∘ jointEquiv sp.sum) - 0) :=
    ((motion_iff hR.spd hS _ _ _ _).mp h2).1
  rw [sub_zero, ← h3] at h4
  have h5 : qdd' = qdd := by
    ext i
    have := congrFun h4 ((sysEquiv sp.sum).symm i)
    simpa using this
  rw [← h5]
  exact ⟨_, h'⟩

/-! ### One contact -/

theorem run_split {r0 r : RSession X n} {hist os : List (RCall X)} (hh : (RSession.loaded x0 cc ts limit).run E hist = some r0)
    (hr : (RSession.loaded x0 cc ts limit).run E (hist ++ os) = some r) :
    r0.run E os = some r ∧ (RSession.loaded x0 cc ts limit).s.SameSetup r0.s ∧ r0.s.cc.length = cc.length ∧
      r0.s.ts.length = ts.length := by
  rw [rrun_append, hh, Option.bind_some] at hr
  have h := rrun_sameSetup hh
  refine ⟨hr, h, ?_, ?_⟩
  · simpa [RSession.loaded, Session.loaded] using (congrArg List.length h.cc).symm
  · simpa [RSession.loaded, Session.loaded] using (congrArg List.length h.ts).symm

/-- C76 (negation).  With one contact a cycle with the reduced model reports a failure and keeps the contact torque that the history
left, whatever robot, state and contacts it was for. -/
theorem C76_single_support_keeps {hist : List (RCall X)} {r0 r : RSession X n} {x : X} {v : List Bool} {fs : List (ℕ → ℝ)} {hqp : Bool}
    (hh : (RSession.loaded x0 cc ts limit).run E hist = some r0)
    (hr : (RSession.loaded x0 cc ts limit).run E (hist ++ reducedCycle x v fs hqp) = some r)
    (hv : v.length ≤ cc.length) (hf : fs.length = ts.length) (h1 : v.count true ≤ 1) : r.s.τc = r0.s.τc ∧ r.s.contactRet = 0 := by
  obtain ⟨hr, -, hl, ht⟩ := run_split hh hr
  obtain ⟨-, m, q, o, P⟩ := rcycle_some hr (hl ▸ hv) (ht ▸ hf)
  have hc : q.c = 6 * v.count true := by
    have := (conOut_c P.con).1
    exact (Option.some.inj this).symm
  rcases P.red with ⟨h6, -⟩ | ⟨-, h2, h3⟩
  · omega
  · exact ⟨h2, h3⟩

/-! ### The contact force reported -/

theorem given_members {x : X} {v : List Bool} {fs : List (ℕ → ℝ)} {sp : RSplit n} (hR : Reducible E x (switchedOn v) sp)
    {r0 : RSession X n} (h0 : (RSession.loaded x0 cc ts limit).s.SameSetup r0.s) (hv : v.length ≤ cc.length) {m : RMembers n}
    (hm : dynOut E (givenAt E.toControlEnv r0.s x v fs) = some m)
    {q : RContactMembers m.k m.nc} (hq : conOut E (givenAt E.toControlEnv r0.s x v fs) m = some q) :
    ∃ J D C N g, m = ⟨sp.k, sp.nc, sp.sum, switchedOn v, D, none⟩ ∧
      HEq q (⟨6 * (switchedOn v).length, C, N, g⟩ : RContactMembers sp.k sp.nc) ∧
      jInc (E.ncInertia (switchedOn v) x) (E.baseRotm x) (baseNc (massR E x sp)) = some J ∧
      reduce vcOf ncOf (massR E x sp)⁻¹ J (E.gravity x ∘ sysEquiv sp.sum) = some D ∧
      reducedContact D (jacR E x (switchedOn v) sp) (massR E x sp)⁻¹ = some C ∧
      (6 < 6 * (switchedOn v).length → reducedNwJw C (E.codR sp.k C.W) = some N) :=
  prepared_members (r0 := r0) hR h0 hv hm hq

/-- When they are defined. -/
theorem given_defined {x : X} {v : List Bool} {fs : List (ℕ → ℝ)} {sp : RSplit n} (hR : Reducible E x (switchedOn v) sp)
    {r0 : RSession X n} (h0 : (RSession.loaded x0 cc ts limit).s.SameSetup r0.s) (hv : v.length ≤ cc.length) (h1 : 1 ≤ (switchedOn v).length)
    {J : Matrix (Fin 6) (Fin sp.nc) ℝ} (hJ : jInc (E.ncInertia (switchedOn v) x) (E.baseRotm x) (baseNc (massR E x sp)) = some J)
    {D : Reduced (Fin sp.k) (Fin sp.nc)} (hD : reduce vcOf ncOf (massR E x sp)⁻¹ J (E.gravity x ∘ sysEquiv sp.sum) = some D)
    {C : ReducedContact (6 * (switchedOn v).length) (Fin sp.k) (Fin sp.nc)}
    (hC : reducedContact D (jacR E x (switchedOn v) sp) (massR E x sp)⁻¹ = some C)
    {N : Matrix (Fin sp.k ⊕ Fin 6) (Fin (6 * (switchedOn v).length - 6)) ℝ}
    (hN : if 6 < 6 * (switchedOn v).length then reducedNwJw C (E.codR sp.k C.W) = some N else N = 0) :
    (dynOut E (givenAt E.toControlEnv r0.s x v fs) = some ⟨sp.k, sp.nc, sp.sum, switchedOn v, D, none⟩ ∧
      conOut E (givenAt E.toControlEnv r0.s x v fs) ⟨sp.k, sp.nc, sp.sum, switchedOn v, D, none⟩ =
        some ⟨6 * (switchedOn v).length, C, N, false⟩) ∧
    (dynOut E (preparedAt E.toControlEnv r0.s x v) = some ⟨sp.k, sp.nc, sp.sum, switchedOn v, D, none⟩ ∧
      conOut E (preparedAt E.toControlEnv r0.s x v) ⟨sp.k, sp.nc, sp.sum, switchedOn v, D, none⟩ =
        some ⟨6 * (switchedOn v).length, C, N, false⟩) := by
  have hcc : contactsAt E.toControlEnv r0.s.cc x v = contactsNow E.toControlEnv cc x v :=
    (posed_setFlags _ v h0.cc).symm.trans (contactsAt_eq x v)
  have ha : Session.activeIdx (contactsAt E.toControlEnv r0.s.cc x v) = switchedOn v := by
    rw [hcc, activeIdx_contactsNow (E := E.toControlEnv) x hv]
  have hJ' : jacAt E.toControlEnv r0.s.cc x v = ⟨_, Session.stackJac E.toControlEnv x (switchedOn v)⟩ :=
    congrArg (fun l => (⟨_, Session.stackJac E.toControlEnv x l⟩ : (c : ℕ) × Matrix (Fin c) (Fin 6 ⊕ Fin n) ℝ)) ha
  have hd : some (6 * v.count true) = some (6 * (switchedOn v).length) := by rw [switchedOn_length]
  exact ⟨hR.defined (s := givenAt E.toControlEnv r0.s x v fs) rfl rfl rfl ha hJ' hd h1 hJ hD hC hN,
    hR.defined (s := preparedAt E.toControlEnv r0.s x v) rfl rfl rfl ha hJ' hd h1 hJ hD hC hN⟩

/-- A call of gravity compensation of the full model. -/
def IsFullGrav : RCall X → Prop
  | .full .grav => True
  | .full .gravInto => True
  | _ => False

/-- No gravity term is stored. -/
def NoGravityTerm (s : Session X n) : Prop := ∀ m, s.space = some m → m.P = none

theorem step_noGravity {E : ControlEnv X n} {s s' : Session X n} {o : ControlCall X} (hs : NoGravityTerm s)
    (ho : ¬ IsFullGrav (.full o)) (h : s.step E o = some s') : NoGravityTerm s' := by
  have hu : ∀ s s' : Session X n, NoGravityTerm s → s.updateContacts E = some s' → NoGravityTerm s' := by
    intro s s' hs h
    simp only [Session.updateContacts] at h
    repeat' split at h
    all_goals first | cases h | skip
    exact hs
  cases o with
  | update x => cases h; exact hs
  | setContact v =>
    simp only [Session.step, Session.setContact] at h
    split at h
    · exact hu _ _ hs h
    · exact hu _ _ (by exact hs) h
  | updateContacts => exact hu _ _ hs h
  | calcContact =>
    simp only [Session.step, calcContact_eq] at h
    obtain ⟨m, hm, rfl⟩ := Option.map_eq_some_iff.mp h
    obtain ⟨S, N, rfl, -⟩ := membersOf_some hm
    intro m' e
    cases e
    rfl
  | grav => exact absurd trivial ho
  | gravInto => exact absurd trivial ho
  | setTask i f =>
    simp only [Session.step, Session.setTask] at h
    repeat' split at h
    all_goals first | cases h | skip
    exact hs
  | taskTorque b =>
    obtain ⟨_, _, _, rfl⟩ := taskTorque_some h
    exact hs
  | redistribute b =>
    simp only [Session.step, Session.redistribute] at h
    repeat' split at h
    all_goals first | cases h | skip
    all_goals exact hs

theorem rstep_space {r r' : RSession X n} {o : RCall X} (ho : ∀ c, o ≠ .full c) (h : r.step E o = some r') :
    r'.s.space = r.s.space := by
  cases o with
  | full o => exact absurd rfl (ho o)
  | dynamics =>
    rw [RSession.step, dynamics_eq] at h
    obtain ⟨m, -, rfl⟩ := Option.map_eq_some_iff.mp h
    rfl
  | contact =>
    simp only [RSession.step] at h
    rcases hm : r.red with _ | m
    · simp [RSession.contact, hm] at h
    rw [contact_eq r hm] at h
    obtain ⟨m, -, rfl⟩ := Option.map_eq_some_iff.mp h
    rfl
  | grav =>
    simp only [RSession.step, RSession.grav] at h
    repeat' split at h
    all_goals first | cases h | skip
    rfl
  | task hqp =>
    simp only [RSession.step] at h
    rcases hm : r.red with _ | m
    · simp [RSession.task, hm] at h
    rcases hq : m.con with _ | q
    · simp [RSession.task, hm, hq] at h
    rw [task_eq r hm hq] at h
    obtain ⟨o, -, rfl⟩ := Option.map_eq_some_iff.mp h
    rfl
  | redistribute hqp =>
    simp only [RSession.step, RSession.redistribute] at h
    repeat' split at h
    all_goals first | cases h | skip
    all_goals rfl

theorem rrun_noGravity {r r' : RSession X n} {os : List (RCall X)} (hs : NoGravityTerm r.s) (ho : ∀ o ∈ os, ¬ IsFullGrav o)
    (h : r.run E os = some r') : NoGravityTerm r'.s := by
  induction os generalizing r with
  | nil => cases h; exact hs
  | cons o os ih =>
    simp only [RSession.run] at h
    obtain ⟨r1, h1, h2⟩ := Option.bind_eq_some_iff.mp h
    refine ih ?_ (fun o' ho' => ho o' (by simp [ho'])) h2
    by_cases hc : ∃ c, o = .full c
    · obtain ⟨c, rfl⟩ := hc
      obtain ⟨s, hs', e, -⟩ := full_some h1
      rw [e]
      exact step_noGravity hs (ho _ (by simp)) hs'
    · intro m e
      rw [rstep_space (fun c hc' => hc ⟨c, hc'⟩) h1] at e
      exact hs m e

/-- C76 (negation).  The calls of the reduced model alone never make the contact force available: as long as gravity compensation of
the full model was not called, `getContactForce` is undefined. -/
theorem C76_force_needs_full_gravity {hist : List (RCall X)} {r : RSession X n} (ho : ∀ o ∈ hist, ¬ IsFullGrav o)
    (hh : (RSession.loaded x0 cc ts limit).run E hist = some r) (τ : Fin n → ℝ) : r.reportedForce τ = none := by
  have h : NoGravityTerm r.s := rrun_noGravity (by nofun) ho hh
  unfold RSession.reportedForce
  split
  · simp only [Session.reportedForce]
    split
    · rfl
    · rename_i m hm
      rw [h m hm]
      rfl
  · split
    · rfl
    · rename_i m hm
      rw [h m hm]

/-- C76 (what is reported).  Gravity compensation of the full model for configuration `x'` and contacts `v'`, then a cycle with the
reduced model for configuration `x` and as many contacts `v`.  For a torque `τ` the force reported is the contact force `F` in `x`, minus
the contact force `F₀` of the robot in `x` without torque, plus that of the robot in `x'` on `v'`.  So it is `F` if `x' = x` and
`v' = v`. -/
theorem C76_reported_force_partial {hist : List (RCall X)} {r : RSession X n} {x x' : X} {v v' : List Bool} {fs : List (ℕ → ℝ)}
    {hqp : Bool} {sp : RSplit n}
    (hr : (RSession.loaded x0 cc ts limit).run E
      (hist ++ [.full (.update x'), .full (.setContact v'), .full .calcContact, .full .grav] ++ reducedCycle x v fs hqp) = some r)
    (hv : v.length ≤ cc.length) (hv' : v'.length ≤ cc.length) (hf : fs.length = ts.length) (hA' : IsSPD (E.mass x'))
    (hR : Reducible E x (switchedOn v) sp) (hn : (switchedOn v).length = (switchedOn v').length)
    {τ : Fin n → ℝ} {qdd qdd₀ qdd₀' : Fin 6 ⊕ Fin n → ℝ} {F F₀ : Fin (6 * (switchedOn v).length) → ℝ}
    {F₀' : Fin (6 * (switchedOn v').length) → ℝ}
    (hM : Motion (E.mass x) (Session.stackJac E.toControlEnv x (switchedOn v)) (E.gravity x) τ qdd F)
    (hM₀ : Motion (E.mass x) (Session.stackJac E.toControlEnv x (switchedOn v)) (E.gravity x) 0 qdd₀ F₀)
    (hM₀' : Motion (E.mass x') (Session.stackJac E.toControlEnv x' (switchedOn v')) (E.gravity x') 0 qdd₀' F₀') :
    r.reportedForce τ = some ⟨_, F - F₀ + F₀' ∘ Fin.cast (congrArg (6 * ·) hn)⟩ := by
  rw [List.append_assoc, rrun_append] at hr
  obtain ⟨r0, h0, hr⟩ := Option.bind_eq_some_iff.mp hr
  rw [rrun_append] at hr
  obtain ⟨r1, h1, hr⟩ := Option.bind_eq_some_iff.mp hr
  have hs0 := rrun_sameSetup h0
  have hs1 := hs0.trans (rrun_sameSetup h1)
  have hl0 : r0.s.cc.length = cc.length := by
    simpa [RSession.loaded, Session.loaded] using (congrArg List.length hs0.cc).symm
  have hl1 : r1.s.cc.length = cc.length := by
    simpa [RSession.loaded, Session.loaded] using (congrArg List.length hs1.cc).symm
  have ht1 : r1.s.ts.length = ts.length := by
    simpa [RSession.loaded, Session.loaded] using (congrArg List.length hs1.ts).symm
  -- the gravity term of the full model
  obtain ⟨S', hS', N', hsp⟩ : ∃ S' : ContactSpace (6 * (switchedOn v').length) (Fin n),
      contactSpace (Session.stackJac E.toControlEnv x' (switchedOn v')) (E.mass x')⁻¹ = some S' ∧ ∃ N',
      r1.s.space = some ⟨_, S', N', some (gravityForce S' (E.gravity x'))⟩ := by
    have e : ([.full (.update x'), .full (.setContact v'), .full .calcContact, .full .grav] : List (RCall X)) =
        [ControlCall.update x', .setContact v'].map .full ++ [.full .calcContact, .full .grav] := rfl
    rw [e, rrun_append, rrun_setup _ (by
      intro o ho
      simp only [List.mem_cons, List.not_mem_nil, or_false] at ho
      rcases ho with rfl | rfl <;> trivial), run_prep r0.s x' (hl0 ▸ hv')] at h1
    split at h1
    swap
    · cases h1
    have hcc : posed (E.contactRot · x') (Session.setFlags r0.s.cc v') = contactsNow E.toControlEnv cc x' v' :=
      (posed_setFlags _ v' hs0.cc).symm.trans (contactsAt_eq x' v')
    have hJ : (⟨_, Session.stackJac E.toControlEnv x' (Session.activeIdx (posed (E.contactRot · x') (Session.setFlags r0.s.cc v')))⟩ :
        (c : ℕ) × Matrix (Fin c) (Fin 6 ⊕ Fin n) ℝ) = ⟨_, Session.stackJac E.toControlEnv x' (switchedOn v')⟩ := by
      rw [hcc, activeIdx_contactsNow (E := E.toControlEnv) x' hv']
    simp only [Session.run, Option.map_some, Option.bind_some, RSession.run, RSession.step, RSession.full, Session.step, calcContact_eq,
      hJ] at h1
    rcases hm : membersOf E.toControlEnv (some (6 * v'.count true)) ⟨_, Session.stackJac E.toControlEnv x' (switchedOn v')⟩
      (E.mass x')⁻¹ with _ | m
    · simp [hm] at h1
    obtain ⟨S, N, rfl, hS⟩ := membersOf_some hm
    rw [hm] at h1
    simp only [Option.map_some, Option.bind_some, Session.grav] at h1
    cases h1
    exact ⟨S, hS, N, rfl⟩
  obtain ⟨-, m, q, o, P⟩ := rcycle_some hr (hl1 ▸ hv) (ht1 ▸ hf)
  obtain ⟨J, D, C, N, g, rfl, hqq, hJ, hD, hC, hN⟩ := given_members hR hs1 hv P.dyn P.con
  cases hqq
  obtain ⟨SR, hSR⟩ := Option.isSome_iff_exists.mp ((C02_finite_iff_independent hR.spd).mpr hR.indepR)
  obtain ⟨C', hC', -, hJC, -⟩ := C41_contact_partial hR.spd hD hR.chainsR hR.rows hSR
  obtain rfl : C' = C := Option.some.inj (hC'.symm.trans hC)
  have e1 := ((C01_contact_force_exact hR.spd hSR _ _).2.1 _ _ (motion_reindex (jointEquiv sp.sum) hM))
  have e2 := ((C01_contact_force_exact hR.spd hSR _ _).2.1 _ _ (motion_reindex (jointEquiv sp.sum) hM₀))
  have e3 := (C01_contact_force_exact hA' hS' _ _).2.1 _ _ hM₀'
  have e4 : F - F₀ = (C'.JcInvT.submatrix id (sysEquiv sp.sum).symm).submatrix id Sum.inr *ᵥ τ := by
    have h0 : (0 : Fin n → ℝ) ∘ jointEquiv sp.sum = 0 := rfl
    rw [e1, e2, hJC, h0]
    unfold contactForce
    rw [mulVec_zero, zero_sub, sub_neg_eq_add, sub_add_cancel]
    ext i
    have := (jointEquiv sp.sum).symm.sum_comp (fun j => SR.JcInvT i (.inr j) * τ (jointEquiv sp.sum j))
    simp only [Equiv.apply_symm_apply] at this
    exact this.symm
  have e5 : F₀' = - gravityForce S' (E.gravity x') := by
    rw [e3]
    unfold contactForce
    rw [mulVec_zero, zero_sub]
  unfold RSession.reportedForce
  rw [P.over, P.space, hsp, e4, e5]
  have hc : 6 * (switchedOn v).length = 6 * (switchedOn v').length := congrArg (6 * ·) hn
  refine (dif_pos hc).trans ?_
  rw [sub_eq_add_neg]
  rfl

/-! ### Another contact -/

/-- What is said of task `j`: it is a task on link `i`, which is not the centre of mass. -/
structure OnLink (E : ReducedEnv X n) (j i : ℕ) : Prop where
  desc : ∀ act x, E.taskDesc act j x = .links [i]
  loaded : ∀ act, (E.table act).Loaded
  link : ∀ act, ¬ IsCom (E.table act) i

theorem kindsAt_link {j i : ℕ} (hE : OnLink E j i) {ts : List SessionTask} (x : X) (act : List ℕ) {ks : List Kind} {k : Kind}
    (hk : ks[j]? = some k) (hj : j < ts.length) :
    ∃ k', (kindsAt E ts x act ks)[j]? = some k' ∧ (k'.cmm = true ↔ k.cmm = true) ∧
      (k'.reduced = true ↔ k.reduced = true ∨ IsChain (E.table act) i) ∧
      (k'.noncont = true ↔ k.noncont = true ∨ IsElsewhere (E.table act) i) := by
  have hd : (ts.mapIdx fun i _ => E.taskDesc act i x)[j]? = some (.links [i]) := by
    rw [List.getElem?_mapIdx, List.getElem?_eq_getElem (l := ts) hj, Option.map_some, hE.desc]
  obtain ⟨m, hm⟩ := classify_getElem? (t := E.table act) _ ks hd hk
  obtain ⟨⟨h1, h2, h3⟩, -⟩ := foldl_visit (hE.loaded act) [i] (k, m)
  have hl := hE.link act
  simp only [List.mem_singleton, exists_eq_left] at h1 h2 h3
  exact ⟨_, hm, by rw [classifyOne, h1]; tauto, h2, h3⟩

theorem rrun_kind_kept {j i : ℕ} (hE : OnLink E j i) {r r' : RSession X n} {os : List (RCall X)} (h : r.run E os = some r') {k : Kind}
    (hk : r.kinds[j]? = some k) (hj : j < r.s.ts.length) :
    ∃ k', r'.kinds[j]? = some k' ∧ (k'.cmm = true ↔ k.cmm = true) ∧ (k.reduced = true → k'.reduced = true) ∧
      (k.noncont = true → k'.noncont = true) := by
  induction os generalizing r k with
  | nil => cases h; exact ⟨k, hk, Iff.rfl, id, id⟩
  | cons o os ih =>
    simp only [RSession.run] at h
    obtain ⟨r1, h1, h2⟩ := Option.bind_eq_some_iff.mp h
    have hj1 : j < r1.s.ts.length := by
      have := congrArg List.length (rstep_setup h1).ts
      simp only [List.length_map] at this
      omega
    obtain ⟨k1, hk1, c1, c2, c3⟩ : ∃ k', r1.kinds[j]? = some k' ∧ (k'.cmm = true ↔ k.cmm = true) ∧
        (k.reduced = true → k'.reduced = true) ∧ (k.noncont = true → k'.noncont = true) := by
      by_cases ho : IsTaskCall o
      · rcases o with o | _ | _ | _ | hqp | _
        all_goals first | exact False.elim ho | skip
        simp only [RSession.step] at h1
        rcases hm : r.red with _ | m
        · simp [RSession.task, hm] at h1
        rcases hq : m.con with _ | q
        · simp [RSession.task, hm, hq] at h1
        rw [task_eq r hm hq] at h1
        obtain ⟨o, -, rfl⟩ := Option.map_eq_some_iff.mp h1
        obtain ⟨k', g1, g2, g3, g4⟩ := kindsAt_link hE r.s.x m.active hk hj
        exact ⟨k', g1, g2, fun h => g3.mpr (.inl h), fun h => g4.mpr (.inl h)⟩
      · exact ⟨k, by rw [rstep_kinds ho h1, hk], Iff.rfl, id, id⟩
    obtain ⟨k2, hk2, d1, d2, d3⟩ := ih h2 hk1 hj1
    exact ⟨k2, hk2, d1.trans c1, d2 ∘ c2, d3 ∘ c3⟩

/-- A task of two types. -/
theorem taskAt_undefined {ts : List SessionTask} {x : X} {Ainv : Matrix (Fin 6 ⊕ Fin n) (Fin 6 ⊕ Fin n) ℝ} {limit : Option (Fin n → ℝ)}
    {cc : List ContactLink} {k nc : ℕ} {sum : k + nc = n} {D : Reduced (Fin k) (Fin nc)} {q : RContactMembers k nc} {ks : List Kind}
    {hqp : Bool} {j : ℕ} {κ : Kind} (hj : j < ts.length) (hκ : ks[j]? = some κ) (h1 : κ.cmm = false) (h2 : κ.reduced = κ.noncont) :
    taskAt E ts x Ainv limit cc sum D q ks hqp = none := by
  have key : ∀ P, ((ts.zip ks).mapIdx fun i p =>
      (⟨p.1.t, (E.taskJac i x p.1.t).submatrix id (sysEquiv sum), p.1.f, p.2.cmm, p.2.reduced, p.2.noncont, p.2.order⟩ :
        RTaskIn (Fin k) (Fin nc))).mapM (calcJKTR D q.C P) = none := by
    intro P
    rcases hm : List.mapM (calcJKTR D q.C P) _ with _ | l
    · rfl
    exfalso
    have hf := Verif.mapM_forall₂ hm
    have hz : (ts.zip ks)[j]? = some (ts[j], κ) := by
      rw [List.getElem?_zip_eq_some]
      exact ⟨List.getElem?_eq_getElem hj, hκ⟩
    have hlt : j < (ts.zip ks).length := by
      by_contra h
      rw [List.getElem?_eq_none (by omega)] at hz
      cases hz
    obtain ⟨hl, hf⟩ := List.forall₂_iff_get.mp hf
    have := hf j (by simpa using hlt) (by rw [← hl]; simpa using hlt)
    simp only [List.get_eq_getElem, List.getElem_mapIdx] at this
    rw [List.getElem?_eq_getElem hlt, Option.some.injEq] at hz
    rw [hz] at this
    have hu := calcJKTR_undefined D q.C P
      ⟨ts[j].t, (E.taskJac j x ts[j].t).submatrix id (sysEquiv sum), ts[j].f, κ.cmm, κ.reduced, κ.noncont, κ.order⟩ h1 h2
    exact absurd (hu.symm.trans this) (by simp)
  unfold taskAt
  simp only [reducedTaskTorqueQP, RSession.plainTask, key]
  split
  · split <;> rfl
  · rfl

/-- C76 (negation).  A task on a link that is on a contact chain with the contacts of one cycle and not with those of another: once both
cycles were gone through, in whichever order and with any calls before and between, the second is undefined.  A robot that lifts a foot
can not control that foot with the reduced model. -/
theorem C76_contact_switch_undefined {j i : ℕ} (hE : OnLink E j i) {hist hist' : List (RCall X)} {x x' : X} {v v' : List Bool}
    {fs fs' : List (ℕ → ℝ)} {hqp hqp' : Bool} (hj : j < ts.length) (hv : v.length ≤ cc.length) (hv' : v'.length ≤ cc.length)
    (hf : fs.length = ts.length) (hf' : fs'.length = ts.length)
    (hsw : (IsChain (E.table (switchedOn v)) i ∧ IsElsewhere (E.table (switchedOn v')) i) ∨
      (IsElsewhere (E.table (switchedOn v)) i ∧ IsChain (E.table (switchedOn v')) i)) :
    (RSession.loaded x0 cc ts limit).run E (hist ++ reducedCycle x v fs hqp ++ hist' ++ reducedCycle x' v' fs' hqp') = none := by
  rcases hr : (RSession.loaded x0 cc ts limit).run E _ with _ | r
  · rfl
  exfalso
  rw [List.append_assoc, List.append_assoc, rrun_append] at hr
  obtain ⟨r0, h0, hr⟩ := Option.bind_eq_some_iff.mp hr
  rw [rrun_append] at hr
  obtain ⟨r1, h1, hr⟩ := Option.bind_eq_some_iff.mp hr
  rw [rrun_append] at hr
  obtain ⟨r2, h2, hr⟩ := Option.bind_eq_some_iff.mp hr
  have lens : ∀ {r : RSession X n}, (RSession.loaded x0 cc ts limit).s.SameSetup r.s → r.s.cc.length = cc.length ∧
      r.s.ts.length = ts.length := by
    intro r h
    constructor
    · simpa [RSession.loaded, Session.loaded] using (congrArg List.length h.cc).symm
    · simpa [RSession.loaded, Session.loaded] using (congrArg List.length h.ts).symm
  have s0 := rrun_sameSetup h0
  have s1 := s0.trans (rrun_sameSetup h1)
  have s2 := s1.trans (rrun_sameSetup h2)
  have act : ∀ {r : RSession X n} {x : X} {v : List Bool} {fs : List (ℕ → ℝ)} {m : RMembers n},
      (RSession.loaded x0 cc ts limit).s.SameSetup r.s → v.length ≤ cc.length →
      dynOut E (givenAt E.toControlEnv r.s x v fs) = some m → m.active = switchedOn v := by
    intro r x v fs m h hv hm
    rw [dynOut_active hm]
    have hcc : contactsAt E.toControlEnv r.s.cc x v = contactsNow E.toControlEnv cc x v :=
      (posed_setFlags _ v h.cc).symm.trans (contactsAt_eq x v)
    change Session.activeIdx (contactsAt E.toControlEnv r.s.cc x v) = _
    rw [hcc, activeIdx_contactsNow (E := E.toControlEnv) x hv]
  have hts : ∀ {r : RSession X n} {x : X} {v : List Bool} {fs : List (ℕ → ℝ)}, (RSession.loaded x0 cc ts limit).s.SameSetup r.s →
      fs.length = ts.length → j < (givenAt E.toControlEnv r.s x v fs).ts.length := by
    intro r x v fs h hf
    have := (lens h).2
    simp [givenAt, commanded]
    omega
  -- the classification of the task through the history
  have hk : (RSession.loaded x0 cc ts limit : RSession X n).kinds[j]? = some Kind.fresh := by
    simp [RSession.loaded, hj, List.getElem?_replicate]
  obtain ⟨k0, hk0, a1, -, -⟩ := rrun_kind_kept hE h0 hk (by simpa [RSession.loaded, Session.loaded] using hj)
  obtain ⟨-, m, q, o, P⟩ := rcycle_some h1 ((lens s0).1 ▸ hv) ((lens s0).2 ▸ hf)
  obtain ⟨k1, hk1, b1, b2, b3⟩ := kindsAt_link hE (ts := (givenAt E.toControlEnv r0.s x v fs).ts)
    (givenAt E.toControlEnv r0.s x v fs).x m.active hk0 (hts s0 hf)
  rw [← P.kinds] at hk1
  rw [act s0 hv P.dyn] at b2 b3
  obtain ⟨k2, hk2, c1, c2, c3⟩ := rrun_kind_kept hE h2 hk1 (by rw [(lens s1).2]; exact hj)
  obtain ⟨-, m', q', o', P'⟩ := rcycle_some hr ((lens s2).1 ▸ hv') ((lens s2).2 ▸ hf')
  obtain ⟨k3, hk3, d1, d2, d3⟩ := kindsAt_link hE (ts := (givenAt E.toControlEnv r2.s x' v' fs').ts)
    (givenAt E.toControlEnv r2.s x' v' fs').x m'.active hk2 (hts s2 hf')
  rw [act s2 hv' P'.dyn] at d2 d3
  have ht := P'.task
  rw [taskOut, taskAt_undefined (hts s2 hf') hk3] at ht
  · cases ht
  · rw [Bool.eq_false_iff, ne_eq, d1, c1, b1, a1]
    simp [Kind.fresh]
  · rcases hsw with ⟨h1, h2⟩ | ⟨h1, h2⟩
    · rw [d2.mpr (.inl (c2 (b2.mpr (.inr h1)))), d3.mpr (.inr h2)]
    · rw [d2.mpr (.inr h2), d3.mpr (.inl (c3 (b3.mpr (.inr h1))))]

/-! ### A cycle that reports success -/

/-- No task outside the contact chains: task torque is assembled from the torque of the reduced model. -/
theorem rqpFrom_chain {k nc c : ℕ} {D : Reduced (Fin k) (Fin nc)} {C : ReducedContact c (Fin k) (Fin nc)} {R : Mat3}
    {P : Matrix (RSys (Fin k) (Fin nc)) (RSys (Fin k) (Fin nc)) ℝ} {K : Option (Matrix (Fin k ⊕ Fin 6) (Fin 6) ℝ)} {Q : RQPRobot k c}
    {solve : Solver} {rs : List (RTask (Fin k) (Fin nc))} (hn : ∀ T ∈ rs, T.noncont = false) {i : ℕ}
    {prev : Option (RTask (Fin k) (Fin nc) × Matrix (Fin k ⊕ Fin 6) (Fin k ⊕ Fin 6) ℝ)} {t : Fin k ⊕ Fin 6 → ℝ} {f : Fin 6 → ℝ}
    {τ : Fin k ⊕ Fin nc → ℝ} {τR : Fin k ⊕ Fin 6 → ℝ} (h : rqpFrom D C R P K Q solve i prev t f none rs = .ret 1 τ τR) :
    τ = assembleTorque D τR 0 := by
  induction rs generalizing i prev t f with
  | nil =>
    simp only [rqpFrom, rqpFinish] at h
    cases h
    rfl
  | cons T rs ih =>
    have hT := hn T (by simp)
    simp only [rqpFrom, hT, Bool.false_eq_true, if_false] at h
    repeat' split at h
    all_goals first | cases h | skip
    all_goals exact ih (fun T' hT' => hn T' (by simp [hT'])) h

theorem calcJKTR_noncont {k nc c : ℕ} {D : Reduced (Fin k) (Fin nc)} {C : ReducedContact c (Fin k) (Fin nc)}
    {P : Matrix (RSys (Fin k) (Fin nc)) (RSys (Fin k) (Fin nc)) ℝ} {T : RTaskIn (Fin k) (Fin nc)} {T' : RTask (Fin k) (Fin nc)}
    (h : calcJKTR D C P T = some T') : T'.noncont = T.noncont := by
  unfold calcJKTR at h
  split_ifs at h
  all_goals
    obtain ⟨x, -, rfl⟩ := Option.map_eq_some_iff.mp h
    rfl

theorem taskAt_chain {ts : List SessionTask} {x : X} {Ainv : Matrix (Fin 6 ⊕ Fin n) (Fin 6 ⊕ Fin n) ℝ} {limit : Option (Fin n → ℝ)}
    {cc : List ContactLink} {k nc : ℕ} {sum : k + nc = n} {D : Reduced (Fin k) (Fin nc)} {q : RContactMembers k nc} {ks : List Kind}
    (hk : ∀ κ ∈ ks, κ.noncont = false) {o : ℕ × (Fin k ⊕ Fin nc → ℝ) × (Fin k ⊕ Fin 6 → ℝ)}
    (h : taskAt E ts x Ainv limit cc sum D q ks true = some o) (h1 : o.1 = 1) : o.2.1 = assembleTorque D o.2.2 0 := by
  unfold taskAt at h
  simp only [if_true, reducedTaskTorqueQP] at h
  split at h
  swap
  · cases h
  split at h
  · cases h
  rename_i v τ τR hr
  obtain rfl := Option.some.inj h
  simp only at h1
  subst h1
  split at hr
  · cases hr
  rename_i rs hm
  refine rqpFrom_chain (fun T hT => ?_) hr
  have hf := Verif.mapM_forall₂ hm
  obtain ⟨hl, hf⟩ := List.forall₂_iff_get.mp hf
  obtain ⟨i, hi, rfl⟩ := List.getElem_of_mem hT
  have := hf i (by omega) hi
  simp only [List.get_eq_getElem] at this
  rw [calcJKTR_noncont this]
  simp only [List.getElem_mapIdx, List.getElem_zip]
  exact hk _ (List.getElem_mem _)

/-- C76.  Whatever was called before, of either model: if a cycle with the reduced model and quadratic programmes, with tasks on the
contact chains only, is defined and both task control and redistribution report success, then the joints of the contact chains respect
the lower torque limit, the robot in configuration `x` on exactly the contacts switched on moves under the torque sent, and none of
these contacts tips or slips. -/
theorem C76_cycle_safe_partial {hist : List (RCall X)} {r : RSession X n} {x : X} {v : List Bool} {fs : List (ℕ → ℝ)} {sp : RSplit n}
    (hr : (RSession.loaded x0 cc ts limit).run E (hist ++ reducedCycle x v fs true) = some r) (ht : r.s.taskRet = 1)
    (hc : r.s.contactRet = 1) (hv : v.length ≤ cc.length) (hf : fs.length = ts.length) (hR : Reducible E x (switchedOn v) sp)
    (hk : ∀ κ ∈ r.kinds, κ.noncont = false) (hp : ∀ l ∈ cc, 0 < l.planeX ∧ 0 < l.planeY) (hs : E.rsolve.Sound) :
    (∀ L, limit = some L → ∀ i : Fin sp.k, -L (jointEquiv sp.sum (.inl i)) ≤ r.command (jointEquiv sp.sum (.inl i))) ∧
    (∃ qdd F, Motion (E.mass x) (Session.stackJac E.toControlEnv x (switchedOn v)) (E.gravity x) r.command qdd F) ∧
    ∀ qdd F, Motion (E.mass x) (Session.stackJac E.toControlEnv x (switchedOn v)) (E.gravity x) r.command qdd F →
      ContactsHold (contactsNow E.toControlEnv cc x v) (F ∘ Fin.cast (active_contactsNow x hv)) := by
  obtain ⟨So, hSo⟩ := Option.isSome_iff_exists.mp ((C02_finite_iff_independent hR.mass).mpr hR.indep)
  obtain ⟨S, hS⟩ := Option.isSome_iff_exists.mp ((C02_finite_iff_independent hR.spd).mpr hR.indepR)
  have hex : ∃ qdd F, Motion (E.mass x) (Session.stackJac E.toControlEnv x (switchedOn v)) (E.gravity x) r.command qdd F := by
    obtain ⟨⟨qdd, hq⟩, -, -⟩ := C01_contact_force_exact hR.mass hSo (E.gravity x) r.command
    exact ⟨_, _, hq⟩
  rw [rrun_append] at hr
  obtain ⟨r0, h0, hr⟩ := Option.bind_eq_some_iff.mp hr
  have hs0 := rrun_sameSetup h0
  have hl0 : r0.s.cc.length = cc.length := by
    simpa [RSession.loaded, Session.loaded] using (congrArg List.length hs0.cc).symm
  have ht0 : r0.s.ts.length = ts.length := by
    simpa [RSession.loaded, Session.loaded] using (congrArg List.length hs0.ts).symm
  obtain ⟨h6d, m, q, o, P⟩ := rcycle_some hr (hl0 ▸ hv) (ht0 ▸ hf)
  obtain ⟨J, D, C, N, g, rfl, hqq, hJ, hD, hC, hN⟩ := given_members hR hs0 hv P.dyn P.con
  cases hqq
  have hcc : (givenAt E.toControlEnv r0.s x v fs).cc = contactsNow E.toControlEnv cc x v :=
    (posed_setFlags _ v hs0.cc).symm.trans (contactsAt_eq x v)
  have hlim : (givenAt E.toControlEnv r0.s x v fs).limit = limit := hs0.limit.symm
  have htask := P.task
  rw [← P.kinds] at htask
  have hasm := taskAt_chain hk htask (P.taskRet.symm.trans ht)
  rcases P.red with ⟨h6, p, hp1, hτc, hret⟩ | ⟨-, -, h⟩
  swap
  · omega
  simp only [redOut, redAt, if_true, hcc, hlim] at hp1
  obtain ⟨Wt, -, hp1⟩ := Option.bind_eq_some_iff.mp hp1
  have hp2 : p = (1, p.2) := by
    rw [← hret.symm.trans hc]
  rw [hp2] at hp1
  have h6' : ∀ l ∈ contactsNow E.toControlEnv cc x v, l.type = .c6d := by
    have h6c : cc.all (fun l => l.type == .c6d) = true := (all_registered hs0.cc).trans h6d
    intro l hl
    obtain ⟨i, hi, rfl⟩ := List.mem_mapIdx.mp hl
    simpa using List.all_eq_true.mp h6c _ (List.getElem_mem hi)
  have hp' : ∀ l ∈ contactsNow E.toControlEnv cc x v, 0 < l.planeX ∧ 0 < l.planeY := by
    intro l hl
    obtain ⟨i, hi, rfl⟩ := List.mem_mapIdx.mp hl
    exact hp cc[i] (List.getElem_mem hi)
  obtain ⟨-, hL, hF⟩ := C59_contacts_hold_partial (Q := ⟨N, limit.map fun L => ⟨n, L⟩, contactsNow E.toControlEnv cc x v⟩)
    hR.spd hR.rot hJ hR.couplingR hD hR.chainsR hR.rows hR.baseR hS hC h6' hp' (active_contactsNow x hv).symm h6 (hN h6) hs hp1 0
  have hcmd : r.command ∘ jointEquiv sp.sum = reducedGravityTorque D C + assembleTorque D o.2.2 0 + p.2 := by
    rw [← hasm]
    ext i
    simp only [RSession.command, Session.command, P.τg, P.τt, hτc, Function.comp, Pi.add_apply, Equiv.symm_apply_apply]
  refine ⟨fun L hLim i => ?_, hex, fun qdd F hM => ?_⟩
  · obtain ⟨hm, h⟩ := hL n L (by rw [hLim]; rfl)
    have := h i
    rw [← hcmd] at this
    exact this
  · have := hF (qdd ∘ sysEquiv sp.sum) F (by rw [← hcmd]; exact motion_reindex (jointEquiv sp.sum) hM)
    exact this

end Verif.Props
