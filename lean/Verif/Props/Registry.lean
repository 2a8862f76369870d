import Verif.Lemmas.Registry

/-!
# C27, C28 (Jacobian), C30: contact registry, stacked Jacobian, stored state
-/

set_option linter.unusedSectionVars false

namespace Verif.Props
open Matrix Verif Verif.Model Verif.Spec Verif.Model.Robot

variable {n : ℕ}

/-- C27 (partial: histories without undefined behaviour; see `C27_number_out_of_range_undefined`).  After any history of
calls on a loaded model, every registered contact is a link of the model, with that link's RBDL body, and no link is
registered twice. -/
theorem C27_registry_partial (W : Rbdl n) (links : List (String × ℕ)) (qs : ℕ) (h : List ContactCall) {s : Robot n}
    (e : (Robot.loaded n links qs).calls W h = some s) :
    s.links = links ∧ (s.cc.map Contact.link).Nodup ∧
      ∀ c ∈ s.cc, ∃ name, links[c.link]? = some (name, c.body) := by
  have k := calls_ok e ⟨by simp [loaded], by simp [loaded]⟩
  refine ⟨k.2.1, k.1.nodup, fun c hc => ?_⟩
  obtain ⟨m, hm⟩ := k.1.known c hc
  exact ⟨m, by rw [← hm, k.2.1]; rfl⟩

/-- C27.  Contacts registered at some time stay, in the same order, in front of the later ones, through any history without
a clearing call. -/
theorem C27_order_kept (W : Rbdl n) : ∀ (h : List ContactCall) {s t : Robot n}, ContactCall.clear ∉ h →
    s.calls W h = some t → s.cc.map Contact.link <+: t.cc.map Contact.link
  | [], s, t, _, e => by simp [Robot.calls] at e; subst e; exact List.prefix_rfl
  | c :: cs, s, t, hc, e => by
    unfold Robot.calls at e
    split at e
    · simp at e
    · rename_i s' hs
      exact (call_prefix hs (fun k => hc (by simp [k]))).trans (C27_order_kept W cs (fun k => hc (by simp [k])) e)

/-- C27.  Registering by a name no link has changes nothing at all. -/
theorem C27_unknown_name (s : Robot n) (name : String) (ty : ContactType) (p : Fin 3 → ℝ)
    (h : ∀ m ∈ s.links.map Prod.fst, ¬ SameName m name) : s.addByName name ty p = some s := by
  unfold addByName
  rw [findIdx_none.mpr h]

/-- C27.  Registering by the name of a link appends exactly one contact, on the first link of that name (case ignored), at
the given point and of the given kind, unless the link is registered already: then nothing changes. -/
theorem C27_known_name (s : Robot n) {name : String} {k : ℕ} (ty : ContactType) (p : Fin 3 → ℝ)
    (h : FirstNamed (s.links.map Prod.fst) name k) :
    (k ∈ s.cc.map Contact.link → s.addByName name ty p = some s) ∧
    (k ∉ s.cc.map Contact.link → ∃ c : Contact n, c.link = k ∧ c.type = ty ∧ c.point = p ∧
      s.addByName name ty p = some { s with cc := s.cc ++ [c] }) := by
  have hk := findIdx_some.mpr h
  unfold addByName
  rw [hk]
  constructor
  · intro hm
    simp only [any_link.mpr hm, if_true]
  · intro hm
    have hlt : k < s.links.length := by obtain ⟨⟨hl, -⟩, -⟩ := h; simpa using hl
    refine ⟨newContact k (s.links[k]).2 ty p, rfl, rfl, rfl, ?_⟩
    have ha : s.cc.any (fun c => c.link == k) = false := by
      rw [← Bool.not_eq_true, any_link]; exact hm
    simp only [ha, Bool.false_eq_true, if_false, List.getElem?_eq_getElem hlt]

/-- C27.  Registering by the number of a link of the model, the same. -/
theorem C27_known_number (s : Robot n) {k : ℕ} (ty : ContactType) (p : Fin 3 → ℝ) (h : k < s.links.length) :
    (k ∈ s.cc.map Contact.link → s.addByNumber k ty p = some s) ∧
    (k ∉ s.cc.map Contact.link → ∃ c : Contact n, c.link = k ∧ c.type = ty ∧ c.point = p ∧
      s.addByNumber k ty p = some { s with cc := s.cc ++ [c] }) := by
  unfold addByNumber
  constructor
  · intro hm
    rw [any_link_int.mpr ⟨k, hm, rfl⟩]; rfl
  · intro hm
    refine ⟨newContact k (s.links[k]).2 ty p, rfl, rfl, rfl, ?_⟩
    have ha : s.cc.any (fun c => (c.link : ℤ) == (k : ℤ)) = false := by
      rw [← Bool.not_eq_true, any_link_int]
      rintro ⟨j, hj, e⟩
      exact hm (by have : j = k := by exact_mod_cast e
                   rwa [this] at hj)
    simp only [ha, Bool.false_eq_true, if_false, Int.toNat_natCast, List.getElem?_eq_getElem h]
    rw [if_neg (by omega)]

/-- C27 (negation).  After any history, registering by a number that is no link of the model is not rejected: it reads
outside the link table. -/
theorem C27_number_out_of_range_undefined (W : Rbdl n) (links : List (String × ℕ)) (qs : ℕ) (h : List ContactCall)
    {s : Robot n} (e : (Robot.loaded n links qs).calls W h = some s) (k : ℤ) (hk : k < 0 ∨ (links.length : ℤ) ≤ k)
    (ty : ContactType) (p : Fin 3 → ℝ) : s.addByNumber k ty p = none := by
  obtain ⟨hl, -, hkn⟩ := C27_registry_partial W links qs h e
  unfold addByNumber
  have ha : s.cc.any (fun c => (c.link : ℤ) == k) = false := by
    rw [← Bool.not_eq_true, any_link_int]
    rintro ⟨j, hj, rfl⟩
    obtain ⟨c, hc, rfl⟩ := List.mem_map.mp hj
    obtain ⟨m, hm⟩ := hkn c hc
    have := (List.getElem?_eq_some_iff.mp hm).1
    omega
  simp only [ha, Bool.false_eq_true, if_false]
  rcases hk with hk | hk
  · simp [hk]
  · rw [if_neg (by omega), hl, List.getElem?_eq_none (by omega)]

/-- C27.  After `SetContact` with at most one flag per contact, the active contacts are those given true, and the active
contact dof and count are the sums over them (every contact kind; a contact kind without dof cannot be switched on). -/
theorem C27_set_contact (W : Rbdl n) {s t : Robot n} {v : List Bool} (hv : v.length ≤ s.cc.length)
    (h : s.setContact W v = some t) :
    t.contactNum = some (chosen s.cc v).length ∧
    (∃ dofs : List ℕ, (chosen s.cc v).map (fun c => c.type.dof) = dofs.map some ∧ t.contactDof = some dofs.sum) ∧
    (activeContacts t.cc).map Contact.link = (chosen s.cc v).map Contact.link ∧
    ∀ c ∈ t.cc, c.flag.isSome := by
  unfold setContact at h
  rw [if_neg (by omega)] at h
  split at h
  · simp at h
  · rename_i d hd
    obtain ⟨hcc, -, -, hdof, hnum, -⟩ := updateContacts_frame h
    refine ⟨?_, ⟨_, (sumDof_eq hd).1, ?_⟩, ?_, ?_⟩
    · rw [hnum, chosen_length _ _ hv]
    · rw [hdof, (sumDof_eq hd).2]
    · have e1 : (activeContacts t.cc).map Contact.link = (activeContacts (setFlags s.cc v)).map Contact.link := by
        clear h hd hdof hnum
        generalize setFlags s.cc v = a at hcc
        generalize t.cc = b at hcc
        simp only at hcc
        induction hcc with
        | nil => rfl
        | cons x _ ih =>
          simp only [activeContacts, List.filter_cons, x.2.2.2.2] at ih ⊢
          split_ifs <;> simp [ih, x.1]
      rw [e1]
      have := congrArg (List.map fun x : ℕ × ℕ × ContactType × (Fin 3 → ℝ) => x.1) (activeContacts_setFlags s.cc v)
      simpa [List.map_map, Function.comp_def] using this
    · intro c hc
      have : ∀ c ∈ t.cc, ∃ c' ∈ setFlags s.cc v, SameContact c c' := by
        clear h hd hdof hnum hc
        generalize setFlags s.cc v = a at hcc
        generalize t.cc = b at hcc
        simp only at hcc
        induction hcc with
        | nil => simp
        | cons x _ ih =>
          intro c hc
          rcases List.mem_cons.mp hc with rfl | hc
          · exact ⟨_, List.mem_cons_self, x⟩
          · obtain ⟨d, hd, k⟩ := ih c hc
            exact ⟨d, List.mem_cons_of_mem _ hd, k⟩
      obtain ⟨c', hc', k⟩ := this c hc
      rw [k.2.2.2.2]
      exact setFlags_some _ _ c' hc'

/-- C28 (Jacobian).  Whatever the stacked Jacobian and the flags were before, `SetContact` with at most one flag per
(6-D) contact is defined and makes the stacked Jacobian exactly the Jacobians of the contacts given true, in registration
order, at the configuration of the kinematics; nothing else is left in it. -/
theorem C28_set_contact_jacobian (W : Rbdl n) (s : Robot n) (v : List Bool) (h6 : ∀ c ∈ s.cc, c.type = .c6d)
    (hv : v.length ≤ s.cc.length) :
    ∃ t, s.setContact W v = some t ∧
      t.jc = (chosen s.cc v).flatMap (fun c => linearFirst (W.pointJacobian6D s.cache c.body c.point)) ∧
      t.contactDof = some t.jc.length := by
  have hact : (activeContacts (setFlags s.cc v)).length = (chosen s.cc v).length := by
    simpa using congrArg List.length (activeContacts_setFlags s.cc v)
  have key := updateContacts_six W
    (s := { s with cc := setFlags s.cc v, contactDof := some (6 * (chosen s.cc v).length), contactNum := some (v.count true) })
    (setFlags_six h6 v) (setFlags_some _ _) (by simp [hact])
  have hw : wantedRows W s.cache (activeContacts (setFlags s.cc v)) =
      (chosen s.cc v).flatMap (fun c => linearFirst (W.pointJacobian6D s.cache c.body c.point)) := by
    have := congrArg (List.flatMap fun x : ℕ × ℕ × ContactType × (Fin 3 → ℝ) =>
      linearFirst (W.pointJacobian6D s.cache x.2.1 x.2.2.2)) (activeContacts_setFlags s.cc v)
    simpa [List.flatMap_map, wantedRows] using this
  refine ⟨{ s with cc := (setFlags s.cc v).map (refreshed W s.cache), contactDof := some (6 * (chosen s.cc v).length)
                   contactNum := some (v.count true), jc := wantedRows W s.cache (activeContacts (setFlags s.cc v)) },
    ?_, hw, ?_⟩
  · unfold setContact
    rw [if_neg (by omega), sumDof_six h6]
    exact key
  · change some (6 * (chosen s.cc v).length) = _
    simp only [hw]
    rw [List.length_flatMap]
    simp [linearFirst_length, Nat.mul_comm]

/-- C28 (Jacobian, histories).  Once all registered (6-D) contacts have been given a flag, then after any further history of
contact switches (also refused ones) and kinematics updates, every `SetContact` leaves in the stacked Jacobian exactly the
Jacobians of the active contacts, in registration order, at the configuration of the kinematics. -/
theorem C28_switching_history (W : Rbdl n) (s : Robot n) (v₀ : List Bool) (h6 : ∀ c ∈ s.cc, c.type = .c6d)
    (hv : v₀.length ≤ s.cc.length) (h : List ContactCall) (hh : ∀ c ∈ h, KeepsRegistry c) (v : List Bool) :
    ∃ t, s.calls W (.setContact v₀ :: h ++ [.setContact v]) = some t ∧
      t.jc = (activeContacts t.cc).flatMap (fun c => linearFirst (W.pointJacobian6D t.cache c.body c.point)) ∧
      t.contactDof = some t.jc.length := by
  have h0 : ∃ s', s.call W (.setContact v₀) = some s' ∧ Settled s' ∧ (∀ c ∈ s'.cc, c.type = .c6d) := by
    have hact : (activeContacts (setFlags s.cc v₀)).length = (chosen s.cc v₀).length := by
      simpa using congrArg List.length (activeContacts_setFlags s.cc v₀)
    obtain ⟨t, e, a, b, -, c⟩ := settled_update W
      (s := { s with cc := setFlags s.cc v₀, contactDof := some (6 * (chosen s.cc v₀).length)
                     contactNum := some (v₀.count true) }) (setFlags_six h6 v₀) ⟨setFlags_some _ _, by simp [hact]⟩
    refine ⟨t, ?_, a, b⟩
    simp only [Robot.call, setContact, if_neg (not_lt.mpr hv), sumDof_six h6]
    exact e
  obtain ⟨s1, e1, a1, b1⟩ := h0
  obtain ⟨s2, e2, a2, b2⟩ := settled_calls W h b1 a1 hh
  obtain ⟨t, e3, a3, -, c3⟩ := settled_call W b2 a2 (c := .setContact v) trivial
  refine ⟨t, ?_, c3 v rfl, ?_⟩
  · rw [List.cons_append, Robot.calls, e1]
    simp only
    rw [calls_append, e2]
    simp [Robot.calls, e3]
  · rw [a3.2, c3 v rfl]
    exact congrArg some (wantedRows_length W t.cache (activeContacts t.cc)).symm

/-- C28 (negation).  A history that leaves stale rows: register a foot, switch it on, clear the registry, then call
`SetContact` for a foot again.  The call prints a message and returns; no contact is registered, yet the stacked Jacobian
still has the six rows of the removed contact and the contact dof is still six. -/
theorem C28_stale_rows_after_clear (W : Rbdl n) (qs : ℕ) (p : Fin 3 → ℝ) :
    ∃ t, (Robot.loaded n [("foot", 1)] qs).calls W
        [.addByNumber 0 .c6d p, .setContact [true], .clear, .setContact [true]] = some t ∧
      t.cc = [] ∧ t.contactDof = some 6 ∧ t.contactNum = some 1 ∧ t.jc = linearFirst (W.pointJacobian6D none 1 p) := by
  simp [Robot.calls, Robot.call, loaded, addByNumber, newContact, setContact, sumDof, ContactType.dof, updateContacts,
    updateContact, setFlags, fillJc, setRows, clearContacts, linearFirst]

/-- C28 (negation).  Registering a contact and calling `UpdateContactConstraint`, or `SetContact` with too many flags, before
the first accepted `SetContact`, reads members that were never set. -/
theorem C28_first_call_undefined (W : Rbdl n) (links : List (String × ℕ)) (qs : ℕ) (v : List Bool) (hv : v ≠ []) :
    (Robot.loaded n links qs).setContact W v = none ∧ (Robot.loaded n links qs).updateContacts W = none := by
  have h : (Robot.loaded n links qs).updateContacts W = none := by simp [loaded, updateContacts]
  refine ⟨?_, h⟩
  unfold setContact
  rw [if_pos (by simpa [loaded] using List.length_pos_iff.mpr hv), h]

/-- C28 (negation for line contacts).  Switching a registered line contact on copies six rows into a block of five. -/
theorem C28_line_switched_on_undefined (W : Rbdl n) (qs : ℕ) (p : Fin 3 → ℝ) :
    (Robot.loaded n [("foot", 1)] qs).calls W [.addByNumber 0 .line p, .setContact [true]] = none := by
  simp [Robot.calls, Robot.call, loaded, addByNumber, newContact, setContact, sumDof, ContactType.dof, updateContacts,
    updateContact, setFlags, fillJc]

/-- C28 (negation for point contacts).  With a point contact registered, even one that stays off, `SetContact` never
completes. -/
theorem C28_point_registered_undefined (W : Rbdl n) (s : Robot n) (v : List Bool) (hv : v.length ≤ s.cc.length)
    (h : (∃ c ∈ s.cc, c.type = .point)) : s.setContact W v = none := by
  unfold setContact
  rw [if_neg (by omega)]
  split
  · rfl
  · have hm : (setFlags s.cc v).mapM (updateContact W s.cache) = none := by
      have hp : ∃ c ∈ setFlags s.cc v, c.type = .point := by
        obtain ⟨c, hc, ht⟩ := h
        have := setFlags_link s.cc v
        generalize setFlags s.cc v = a at this
        clear hv
        generalize s.cc = b at this hc
        induction this with
        | nil => simp at hc
        | cons x _ ih =>
          rcases List.mem_cons.mp hc with rfl | hc
          · exact ⟨_, List.mem_cons_self, by rw [x.2.2.1, ht]⟩
          · obtain ⟨d, hd, k⟩ := ih hc
            exact ⟨d, List.mem_cons_of_mem _ hd, k⟩
      generalize setFlags s.cc v = a at hp
      induction a with
      | nil => simp at hp
      | cons c cs ih =>
        obtain ⟨d, hd, ht⟩ := hp
        simp only [List.mapM_cons]
        rcases List.mem_cons.mp hd with rfl | hd
        · simp [updateContact, ht]
        · rw [ih ⟨d, hd, ht⟩]
          cases updateContact W s.cache c <;> rfl
    simp only [updateContacts, hm]

/-! ### C30 -/

/-- C30.  With any wrong length, `UpdateKinematics` changes nothing. -/
theorem C30_wrong_size (s : Robot n) (q qd qdd : List ℝ) (u : Bool)
    (h : q.length ≠ s.qSize ∨ qd.length ≠ n ∨ qdd.length ≠ n) : s.updateKinematics q qd qdd u = s := by
  unfold Robot.updateKinematics
  by_cases a : s.qSize = q.length
  · by_cases b : n = qd.length
    · by_cases c : n = qdd.length
      · exfalso
        rcases h with h | h | h
        · exact h a.symm
        · exact h b.symm
        · exact h c.symm
      · rw [if_neg (by simp [a]), if_neg (by simp [← b]), if_pos c]
    · rw [if_neg (by simp [a]), if_pos b]
  · rw [if_pos a]

/-- the state vectors a call hands over -/
def stateOf : ContactCall → Option (List ℝ × List ℝ × List ℝ)
  | .updateKinematics q qd qdd _ => some (q, qd, qdd)
  | _ => none

/-- the state vectors are of the model's sizes -/
def RightSize (qs n : ℕ) (x : List ℝ × List ℝ × List ℝ) : Prop :=
  x.1.length = qs ∧ x.2.1.length = n ∧ x.2.2.length = n

instance (qs n : ℕ) (x : List ℝ × List ℝ × List ℝ) : Decidable (RightSize qs n x) := by
  unfold RightSize; infer_instance

theorem call_state {W : Rbdl n} {s t : Robot n} {c : ContactCall} (h : s.call W c = some t) :
    (t.q, t.qdot, t.qddot) =
      lastOr (fun x => decide (RightSize s.qSize n x)) (s.q, s.qdot, s.qddot) (stateOf c).toList := by
  cases c with
  | addByNumber l ty p =>
    rcases addByNumber_cases h with rfl | ⟨_, _, _, -, -, -, rfl⟩ <;> rfl
  | addByName m ty p =>
    rcases addByName_cases h with rfl | ⟨_, _, _, -, -, -, rfl⟩ <;> rfl
  | clear => simp [Robot.call, clearContacts] at h; subst h; rfl
  | setContact v =>
    obtain ⟨-, -, -, a, b, c, -⟩ := setContact_frame h
    simp [stateOf, lastOr, a, b, c]
  | updateContacts =>
    obtain ⟨-, -, -, -, -, a, b, c, -⟩ := updateContacts_frame h
    simp [stateOf, lastOr, a, b, c]
  | updateKinematics q qd qdd u =>
    simp only [Robot.call, Option.some.injEq] at h; subst h
    by_cases hr : RightSize s.qSize n (q, qd, qdd)
    · obtain ⟨a, b, c⟩ := hr
      have hr : RightSize s.qSize n (q, qd, qdd) := ⟨a, b, c⟩
      simp only at a b c
      unfold Robot.updateKinematics
      rw [if_neg (by simp [a]), if_neg (by simp [b]), if_neg (by simp [c])]
      simp [stateOf, lastOr, hr]
    · rw [C30_wrong_size s q qd qdd u (by unfold RightSize at hr; push Not at hr; simp only at hr; tauto)]
      simp [stateOf, lastOr, hr]
  | refresh u =>
    simp only [Robot.call, Option.some.injEq] at h; subst h
    unfold Robot.updateKinematics
    split_ifs <;> rfl

/-- C30.  After any history of calls the stored position, velocity and acceleration are exactly those of the last
`UpdateKinematics` call with the right lengths (zero if there was none). -/
theorem C30_stored_state (W : Rbdl n) (links : List (String × ℕ)) (qs : ℕ) (h : List ContactCall) {s : Robot n}
    (e : (Robot.loaded n links qs).calls W h = some s) :
    (s.q, s.qdot, s.qddot) = lastOr (fun x => decide (RightSize qs n x))
      (List.replicate qs 0, List.replicate n 0, List.replicate n 0) (h.filterMap stateOf) := by
  have key : ∀ (h : List ContactCall) (s t : Robot n), s.calls W h = some t → (t.q, t.qdot, t.qddot) =
      lastOr (fun x => decide (RightSize s.qSize n x)) (s.q, s.qdot, s.qddot) (h.filterMap stateOf) := by
    intro h
    induction h with
    | nil => intro s t e; simp [Robot.calls] at e; subst e; rfl
    | cons c cs ih =>
      intro s t e
      unfold Robot.calls at e
      split at e
      · simp at e
      · rename_i s' hs
        rw [ih s' t e, call_state hs, (call_links hs).2]
        unfold lastOr
        cases hst : stateOf c with
        | none => simp [List.filterMap_cons, hst]
        | some x =>
          simp only [List.filterMap_cons, hst, Option.toList_some, List.filter_cons, List.filter_nil]
          split_ifs
          · simp only [List.getLastD_cons, List.getLastD_nil]
          · rfl
  exact key h _ _ e

/-- a call that asks for the kinematics to be recomputed, if it is a state update at all -/
def Recomputes : ContactCall → Prop
  | .updateKinematics _ _ _ u => u = true
  | .refresh u => u = true
  | _ => True

/-- a state update that is carried out -/
def Accepted (qs n : ℕ) : ContactCall → Prop
  | .updateKinematics q qd qdd _ => RightSize qs n (q, qd, qdd)
  | .refresh _ => True
  | _ => False

theorem call_cache {W : Rbdl n} {s t : Robot n} {c : ContactCall} (h : s.call W c = some t) (hr : Recomputes c)
    (hs : RightSize s.qSize n (s.q, s.qdot, s.qddot)) :
    RightSize t.qSize n (t.q, t.qdot, t.qddot) ∧ (Accepted s.qSize n c → t.cache = some t.q) ∧
      (s.cache = some s.q → t.cache = some t.q) := by
  obtain ⟨h1, h2, h3⟩ := hs
  simp only at h1 h2 h3
  cases c with
  | addByNumber l ty p =>
    rcases addByNumber_cases h with rfl | ⟨_, _, _, -, -, -, rfl⟩ <;> exact ⟨⟨h1, h2, h3⟩, False.elim, id⟩
  | addByName m ty p =>
    rcases addByName_cases h with rfl | ⟨_, _, _, -, -, -, rfl⟩ <;> exact ⟨⟨h1, h2, h3⟩, False.elim, id⟩
  | clear => simp [Robot.call, clearContacts] at h; subst h; exact ⟨⟨h1, h2, h3⟩, False.elim, id⟩
  | setContact v =>
    obtain ⟨-, -, k, a, b, c, d⟩ := setContact_frame h
    rw [k, a, b, c, d]; exact ⟨⟨h1, h2, h3⟩, False.elim, id⟩
  | updateContacts =>
    obtain ⟨-, -, k, -, -, a, b, c, d⟩ := updateContacts_frame h
    rw [k, a, b, c, d]; exact ⟨⟨h1, h2, h3⟩, False.elim, id⟩
  | updateKinematics q qd qdd u =>
    obtain rfl : u = true := hr
    simp only [Robot.call, Option.some.injEq] at h; subst h
    by_cases hr : RightSize s.qSize n (q, qd, qdd)
    · obtain ⟨a, b, c⟩ := id hr
      simp only at a b c
      unfold Robot.updateKinematics
      rw [if_neg (by simp [a]), if_neg (by simp [b]), if_neg (by simp [c])]
      exact ⟨hr, fun _ => rfl, fun _ => rfl⟩
    · rw [C30_wrong_size s q qd qdd true (by unfold RightSize at hr; push Not at hr; simp only at hr; tauto)]
      exact ⟨⟨h1, h2, h3⟩, fun h => absurd h hr, id⟩
  | refresh u =>
    obtain rfl : u = true := hr
    simp only [Robot.call, Option.some.injEq] at h; subst h
    unfold Robot.updateKinematics
    rw [if_neg (by simp [h1]), if_neg (by simp [h2]), if_neg (by simp [h3])]
    exact ⟨⟨h1, h2, h3⟩, fun _ => rfl, fun _ => rfl⟩

/-- C30.  If every state update asks for the kinematics (the default) and at least one was carried out, then the Jacobians
used by later calls are those of the stored position, whatever wrongly sized updates came in between. -/
theorem C30_kinematics_current (W : Rbdl n) (links : List (String × ℕ)) (qs : ℕ) (h : List ContactCall) {s : Robot n}
    (e : (Robot.loaded n links qs).calls W h = some s) (hr : ∀ c ∈ h, Recomputes c) (ha : ∃ c ∈ h, Accepted qs n c) :
    s.cache = some s.q := by
  have key : ∀ (h : List ContactCall) (s t : Robot n), s.calls W h = some t → (∀ c ∈ h, Recomputes c) →
      RightSize s.qSize n (s.q, s.qdot, s.qddot) → (s.cache = some s.q ∨ ∃ c ∈ h, Accepted s.qSize n c) →
      t.cache = some t.q := by
    intro h
    induction h with
    | nil => intro s t e _ _ ho; simp [Robot.calls] at e; subst e; simpa using ho
    | cons c cs ih =>
      intro s t e hr hs ho
      unfold Robot.calls at e
      split at e
      · simp at e
      · rename_i s' hs'
        obtain ⟨k1, k2, k3⟩ := call_cache hs' (hr c (by simp)) hs
        refine ih s' t e (fun d hd => hr d (by simp [hd])) k1 ?_
        rw [(call_links hs').2]
        rcases ho with ho | ⟨d, hd, hda⟩
        · exact Or.inl (k3 ho)
        · rcases List.mem_cons.mp hd with rfl | hd
          · exact Or.inl (k2 hda)
          · exact Or.inr ⟨d, hd, hda⟩
  exact key h _ _ e hr ⟨by simp [loaded], by simp [loaded], by simp [loaded]⟩ (Or.inr ha)

/-! ### The hypotheses are met -/

/-- a robot with two feet, and a Jacobian that depends on body and configuration -/
noncomputable def exRbdl : Rbdl 6 := ⟨fun cfg b _ => Matrix.of fun i j => if i = j then (b : ℝ) + (cfg.getD []).length else 0⟩

noncomputable def exRobot : Robot 6 := Robot.loaded 6 [("L_Foot", 3), ("R_Foot", 7), ("COM", 0)] 7

theorem exHistory : ∃ s, exRobot.calls exRbdl [.addByName "l_foot" .c6d 0, .addByName "R_FOOT" .c6d 0,
    .addByName "hand" .c6d 0, .addByNumber 1 .c6d 0] = some s ∧ s.cc.map Contact.link = [0, 1] ∧
    (∀ c ∈ s.cc, c.type = .c6d) ∧ s.cc.length = 2 := by
  have e1 : List.findIdx? (fun l : String × ℕ => strcaseEq l.1 "l_foot") [("L_Foot", 3), ("R_Foot", 7), ("COM", 0)] = some 0 := by
    decide
  have e2 : List.findIdx? (fun l : String × ℕ => strcaseEq l.1 "R_FOOT") [("L_Foot", 3), ("R_Foot", 7), ("COM", 0)] = some 1 := by
    decide
  have e3 : List.findIdx? (fun l : String × ℕ => strcaseEq l.1 "hand") [("L_Foot", 3), ("R_Foot", 7), ("COM", 0)] = none := by
    decide
  simp [exRobot, loaded, Robot.calls, Robot.call, addByName, e1, e2, e3, addByNumber, newContact]

/-- switching one foot on, then moving, then both (a refused call in between) falls under `C28_switching_history` -/
example : ∃ s : Robot 6, (∀ c ∈ s.cc, c.type = .c6d) ∧ [true].length ≤ s.cc.length ∧
    ∀ c ∈ [ContactCall.updateKinematics [] [] [] true, .setContact [true, true, true], .updateContacts], KeepsRegistry c := by
  obtain ⟨s, -, -, h6, hl⟩ := exHistory
  exact ⟨s, h6, by simp [hl], by simp [KeepsRegistry]⟩

/-- an accepted update, a contact switch and a refused update fall under `C30_kinematics_current` -/
example : ∃ s, (Robot.loaded 6 [("L_Foot", 3)] 7).calls exRbdl [.addByNumber 0 .c6d 0,
    .updateKinematics (List.replicate 7 1) (List.replicate 6 2) (List.replicate 6 3) true,
    .updateKinematics [] [] [] true] = some s ∧ s.cache = some (List.replicate 7 1) := by
  refine ⟨_, rfl, ?_⟩
  simp [Robot.updateKinematics, loaded, addByNumber, newContact]

/-- names: one that is known, one that is not -/
example : FirstNamed (exRobot.links.map Prod.fst) "r_foot" 1 ∧
    ∀ m ∈ exRobot.links.map Prod.fst, ¬ SameName m "hand" := by
  constructor
  · exact findIdx_some.mp (by decide)
  · exact findIdx_none.mp (by decide)

/-- a history with a rejected and an accepted update -/
example : RightSize 1 2 ([1], [2, 3], [4, 5]) ∧ ¬ RightSize 1 2 ([1], [2], [4, 5]) := by
  simp [RightSize]

end Verif.Props
